/-
C147 and C148 on the whole chain: tuning in to transport and program streams, and lost transport packets.
-/
import Verif.Pipe.LossProps
import Verif.Pipe.TuneProps
import Verif.Video.GapsProps
set_option linter.all false
namespace Mpeg.Pipe
open PES.Spec TS.Spec

/-- What C90 assumes about the data before the entry point, for the streams of C147. -/
theorem clean_before {W H base pos : Nat} {σ : Option Video.Spec.Ctx} {prev : Option Video.Spec.Image} {vs : List Video.Spec.CGroup} {cs : List Nat}
    {p skip bits rest : List Bool} {imgs : List Video.Spec.Image} (hent : Video.Spec.Entry vs)
    (hc : Video.Spec.CleanStream cs (p ++ skip)) (hcs : (p ≠ [] ∧ 0xB3 ∉ cs.tail) ∨ 0xB3 ∉ cs)
    (hv : Video.Spec.GroupsCode W H base σ prev pos vs bits imgs) :
    ∀ j, 8 * j < skip.length → ((skip ++ (bits ++ (bitsOf 32 0x1B7 ++ rest))).drop (8 * j)).take 32 ≠ bitsOf 32 0x1B3 := by
  obtain ⟨u, hu⟩ := Video.entry_starts hent hv
  intro j hj
  rw [hu, show (0x1B3 : Nat) = 0x100 + 0xB3 from rfl, Video.bits_code (by omega), List.append_assoc, List.append_assoc]
  rw [← Video.bits_code (by omega)]
  exact Video.C147_absent hc (by omega) hcs _ _ hj

/-- **C147**, tuning in to a transport stream (partial: as C90): the recording begins anywhere, also inside an element of the elementary
stream.  Nothing is assumed about the data before the entry point except that they are elements of a video stream. -/
theorem C147_transport_partial {k fuel fuel' fuelV kV : Nat} {pre : List Pkt} {gs : List (Pkt × List Pkt)} {us : List PesUnit}
    (h : Carries k pre gs us) (ho : ∀ u ∈ us, u.last.isSome)
    {l : List (List UInt8 × Pkt)} {t : List UInt8} (hw : NoisyWF l t)
    (hl : l.map (·.2) = pre ++ (gs.map fun g => g.1 :: g.2).flatten)
    (hf : (pre ++ (gs.map fun g => g.1 :: g.2).flatten).length < fuel) (hf' : count us < fuel')
    {W H base : Nat} {σ : Option Video.Spec.Ctx} {prev : Option Video.Spec.Image} {vs : List Video.Spec.CGroup} {cs : List Nat}
    {p skip bits rest : List Bool} {imgs : List Video.Spec.Image}
    (hs : bitsOfBytes (us.flatMap (·.payload)) = skip ++ (bits ++ (bitsOf 32 0x1B7 ++ rest))) (h8 : skip.length % 8 = 0)
    (hc : Video.Spec.CleanStream cs (p ++ skip)) (hcs : (p ≠ [] ∧ 0xB3 ∉ cs.tail) ∨ 0xB3 ∉ cs)
    (hent : Video.Spec.Entry vs) (hv : Video.Spec.GroupsCode W H base σ prev skip.length vs bits imgs) (hk : 2 ≤ kV)
    (hfv : bits.length < fuelV) :
    (∃ br, IsSource (puReads fuel k (noisy l t)) br ∧ ∃ br', IsSource (pesReads fuel' br) br') ∧
    ∀ br br', IsSource (puReads fuel k (noisy l t)) br → IsSource (pesReads fuel' br) br' →
      ∃ s, Video.VS.lift (Video.alignTo 0x1B3) (Video.VS.new br') = (.ok (), s) ∧
      ∃ frames t, Video.nexts fuelV kV imgs.length s = (.ok frames, t) ∧ frames.length = imgs.length ∧
        (∀ i (h1 : i < frames.length) (h2 : i < imgs.length), Video.Spec.Shows W H frames[i] imgs[i]) ∧
        (Video.VS.next fuelV kV t).1 = .err .eos :=
  C90_partial h ho hw hl hf hf' hs h8 (clean_before hent hc hcs hv) hent hv hk hfv

/-- **C147**, tuning in to a program stream (partial: as C90). -/
theorem C147_program_partial {ps : List PS.Spec.Pack} {tail : List Bool} {fuelV kV : Nat} (hw : ∀ p ∈ ps, p.WF)
    (hne : ∀ p ∈ ps, p.items ≠ [])
    {W H base : Nat} {σ : Option Video.Spec.Ctx} {prev : Option Video.Spec.Image} {vs : List Video.Spec.CGroup} {cs : List Nat}
    {p skip bits rest : List Bool} {imgs : List Video.Spec.Image}
    (hs : bitsOfBytes (ps.flatMap PS.Spec.Pack.payload) = skip ++ (bits ++ (bitsOf 32 0x1B7 ++ rest))) (h8 : skip.length % 8 = 0)
    (hc : Video.Spec.CleanStream cs (p ++ skip)) (hcs : (p ≠ [] ∧ 0xB3 ∉ cs.tail) ∨ 0xB3 ∉ cs)
    (hent : Video.Spec.Entry vs) (hv : Video.Spec.GroupsCode W H base σ prev skip.length vs bits imgs) (hk : 2 ≤ kV)
    (hfv : bits.length < fuelV) :
    (∃ br, IsSource (packReads (PS.Spec.encProgram ps ++ tail)) br) ∧
    ∀ br, IsSource (packReads (PS.Spec.encProgram ps ++ tail)) br →
      ∃ s, Video.VS.lift (Video.alignTo 0x1B3) (Video.VS.new br) = (.ok (), s) ∧
      ∃ frames t, Video.nexts fuelV kV imgs.length s = (.ok frames, t) ∧ frames.length = imgs.length ∧
        (∀ i (h1 : i < frames.length) (h2 : i < imgs.length), Video.Spec.Shows W H frames[i] imgs[i]) ∧
        (Video.VS.next fuelV kV t).1 = .err .eos :=
  C90_program_partial hw hne hs h8 (clean_before hent hc hcs hv) hent hv hk hfv

/-- **C148**, lost transport packets (partial: as C87 and C123).  Of the packets `l` only `l'` are received, so that the elementary stream has
a gap: what is received is `a`, cut off anywhere, and then `m`, which begins anywhere, and the sequence `bits`.  The application calls `AlignTo`
with the sequence header code, and at most once more after having skipped the four bytes at which the first call stopped; the calls of `Next`
then return all pictures of the sequence. -/
theorem C148_transport_partial {k fuel fuel' fuelV kV : Nat} {l l' : List (Pkt × List UInt8)} (h : ∀ x ∈ l, Piece k x.1 x.2) (hl : l'.Sublist l)
    (hf : l.length < fuel) (hf' : l.length < fuel')
    {W H base : Nat} {σ : Option Video.Spec.Ctx} {prev : Option Video.Spec.Image} {vs : List Video.Spec.CGroup} {cs1 cs2 : List Nat}
    {a1 a b p m bits rest : List Bool} {imgs : List Video.Spec.Image}
    (hs : bitsOfBytes ((core k l').flatMap (·.2)) = a ++ (m ++ (bits ++ (bitsOf 32 0x1B7 ++ rest)))) (h8 : (a ++ m).length % 8 = 0)
    (hm : 32 ≤ m.length) (h1 : Video.Spec.CleanStream cs1 (a1 ++ (a ++ b))) (h2 : Video.Spec.CleanStream cs2 (p ++ m))
    (hc1 : (a1 ≠ [] ∧ 0xB3 ∉ cs1.tail) ∨ 0xB3 ∉ cs1) (hc2 : (p ≠ [] ∧ 0xB3 ∉ cs2.tail) ∨ 0xB3 ∉ cs2)
    (hent : Video.Spec.Entry vs) (hv : Video.Spec.GroupsCode W H base σ prev (a.length + m.length) vs bits imgs) (hk : 2 ≤ kV)
    (hfv : bits.length < fuelV) :
    (∃ br br', IsSource (puReads fuel k (stream l')) br ∧ IsSource (pesReads fuel' br) br') ∧
    ∀ br br', IsSource (puReads fuel k (stream l')) br → IsSource (pesReads fuel' br) br' →
      ∃ s1, Video.VS.lift (Video.alignTo 0x1B3) (Video.VS.new br') = (.ok (), s1) ∧
      ∃ s3, (s3 = s1 ∨ ∃ s2, Video.VS.lift (BR.skip 32) s1 = (.ok (), s2) ∧ Video.VS.lift (Video.alignTo 0x1B3) s2 = (.ok (), s3)) ∧
      ∃ frames t, Video.nexts fuelV kV imgs.length s3 = (.ok frames, t) ∧ frames.length = imgs.length ∧
        (∀ i (h1 : i < frames.length) (h2 : i < imgs.length), Video.Spec.Shows W H frames[i] imgs[i]) ∧
        (Video.VS.next fuelV kV t).1 = .err .eos := by
  obtain ⟨⟨br0, hbr0⟩, hrd⟩ := C123_units h hl hf hf'
  have key : ∀ br, IsSource (puReads fuel k (stream l')) br →
      IsSource (pesReads fuel' br) ⟨bitsOfBytes ((core k l').flatMap (·.2)), 0, .eof, []⟩ := by
    intro br hbr
    refine ⟨_, .eof, [], rfl, fun ns _ => ?_⟩
    rw [hrd br hbr ns, deliver_segs]
  refine ⟨⟨br0, _, hbr0, key br0 hbr0⟩, fun br br' g1 g2 => ?_⟩
  obtain rfl := g2.unique (key br g1)
  rw [hs]
  have hfb : ∀ x : List Bool, Video.Spec.fromBoundary (Video.VS.new ⟨x, 0, .eof, []⟩).br = x := by
    intro x
    show List.drop (Video.Spec.padding 0) x = x
    rw [show Video.Spec.padding 0 = 0 by decide]
    rfl
  obtain ⟨s1, r1, s3, r2, w, frames, t, r3, _, _, r4, r5, r6, r7, _⟩ := Video.C148_seek_partial (fuel := fuelV) (rest := rest) hk hent
    (Video.VS.new ⟨a ++ (m ++ (bits ++ (bitsOf 32 0x1B7 ++ rest))), 0, .eof, []⟩) (hfb _) h8 hm h1 h2 hc1 hc2 (by
      have : (Video.VS.new ⟨a ++ (m ++ (bits ++ (bitsOf 32 0x1B7 ++ rest))), 0, .eof, []⟩).br.pos +
        Video.Spec.padding (Video.VS.new ⟨a ++ (m ++ (bits ++ (bitsOf 32 0x1B7 ++ rest))), 0, .eof, []⟩).br.pos + (a.length + m.length) =
          a.length + m.length := by
        show 0 + Video.Spec.padding 0 + (a.length + m.length) = _
        rw [show Video.Spec.padding 0 = 0 by decide]
        omega
      rw [this]; exact hv) hfv
  have hw : w = [] := r4 rfl
  subst hw
  simp only [List.length_nil, Nat.zero_add, List.nil_append] at r3
  exact ⟨s1, r1, s3, r2, frames, t, r3, r5, r6, r7⟩

/-- **C148**, any lost transport packets (partial: as C87 and C123): what is received before the sequence header are any parts `ms` of the
elementary stream.  The application gets to the sequence header with at most one wrong stop for every gap, and the calls of `Next` return all
pictures of the sequence. -/
theorem C148_lost_partial {k fuel fuel' fuelV kV : Nat} {l l' : List (Pkt × List UInt8)} (h : ∀ x ∈ l, Piece k x.1 x.2) (hl : l'.Sublist l)
    (hf : l.length < fuel) (hf' : l.length < fuel')
    {W H base : Nat} {σ : Option Video.Spec.Ctx} {prev : Option Video.Spec.Image} {vs : List Video.Spec.CGroup}
    {ms : List (List Bool)} {bits rest : List Bool} {imgs : List Video.Spec.Image}
    (hs : bitsOfBytes ((core k l').flatMap (·.2)) = ms.flatten ++ (bits ++ (bitsOf 32 0x1B7 ++ rest))) (h8 : ms.flatten.length % 8 = 0)
    (hm : ∀ m ∈ ms, Video.Spec.CleanPart 0xB3 m)
    (hent : Video.Spec.Entry vs) (hv : Video.Spec.GroupsCode W H base σ prev ms.flatten.length vs bits imgs) (hk : 2 ≤ kV)
    (hfv : bits.length < fuelV) :
    (∃ br br', IsSource (puReads fuel k (stream l')) br ∧ IsSource (pesReads fuel' br) br') ∧
    ∀ br br', IsSource (puReads fuel k (stream l')) br → IsSource (pesReads fuel' br) br' →
      ∃ c br1, c ≤ ms.length ∧ Video.Spec.Finds 0xB3 c br' br1 ∧
      ∃ frames t, Video.nexts fuelV kV imgs.length { Video.VS.new br' with br := br1 } = (.ok frames, t) ∧ frames.length = imgs.length ∧
        (∀ i (h1 : i < frames.length) (h2 : i < imgs.length), Video.Spec.Shows W H frames[i] imgs[i]) ∧
        (Video.VS.next fuelV kV t).1 = .err .eos := by
  obtain ⟨⟨br0, hbr0⟩, hrd⟩ := C123_units h hl hf hf'
  have key : ∀ br, IsSource (puReads fuel k (stream l')) br →
      IsSource (pesReads fuel' br) ⟨bitsOfBytes ((core k l').flatMap (·.2)), 0, .eof, []⟩ := by
    intro br hbr
    refine ⟨_, .eof, [], rfl, fun ns _ => ?_⟩
    rw [hrd br hbr ns, deliver_segs]
  refine ⟨⟨br0, _, hbr0, key br0 hbr0⟩, fun br br' g1 g2 => ?_⟩
  obtain rfl := g2.unique (key br g1)
  rw [hs]
  have hfb : ∀ x : List Bool, Video.Spec.fromBoundary (Video.VS.new ⟨x, 0, .eof, []⟩).br = x := by
    intro x
    show List.drop (Video.Spec.padding 0) x = x
    rw [show Video.Spec.padding 0 = 0 by decide]
    rfl
  obtain ⟨c, br1, r1, r2, w, frames, t, r3, _, _, r4, r5, r6, r7, _⟩ := Video.C148_resume_partial (fuel := fuelV) (rest := rest) hk hent
    (Video.VS.new ⟨ms.flatten ++ (bits ++ (bitsOf 32 0x1B7 ++ rest)), 0, .eof, []⟩) (hfb _) h8 hm (by
      have : (Video.VS.new ⟨ms.flatten ++ (bits ++ (bitsOf 32 0x1B7 ++ rest)), 0, .eof, []⟩).br.pos +
        Video.Spec.padding (Video.VS.new ⟨ms.flatten ++ (bits ++ (bitsOf 32 0x1B7 ++ rest)), 0, .eof, []⟩).br.pos + ms.flatten.length =
          ms.flatten.length := by
        show 0 + Video.Spec.padding 0 + ms.flatten.length = _
        rw [show Video.Spec.padding 0 = 0 by decide]
        omega
      rw [this]; exact hv) hfv
  have hw : w = [] := r4 rfl
  subst hw
  simp only [List.length_nil, Nat.zero_add, List.nil_append] at r3
  exact ⟨c, br1, r1, r2, frames, t, r3, r5, r6, r7⟩

/-! ### the hypotheses can be met -/

open Video.Spec in
/-- A stream that meets the hypotheses of `C148_lost_partial`: what is between three parts is lost. -/
example : ∃ (bits rest : List Bool) (imgs : List Image) (l l' : List (Pkt × List UInt8)), (∀ x ∈ l, Piece 0x21 x.1 x.2) ∧ l'.Sublist l ∧
    bitsOfBytes ((core 0x21 l').flatMap (·.2)) = Video.GapEx.parts.flatten ++ (bits ++ (bitsOf 32 0x1B7 ++ rest)) ∧ imgs.length = 3 ∧
    ∃ br br' c br1 frames t, IsSource (puReads (l.length + 1) 0x21 (stream l')) br ∧ IsSource (pesReads (l.length + 1) br) br' ∧
      Finds 0xB3 c br' br1 ∧ Video.nexts (bits.length + 1) 2 imgs.length { Video.VS.new br' with br := br1 } = (.ok frames, t) ∧ frames.length = 3 := by
  obtain ⟨bits, imgs, h, h3⟩ := Video.ExStream.stream_at Video.GapEx.parts.flatten.length
  let pad := 8 - (bits.length % 8)
  let sl : SliceData := (Video.Spec.allSlices [Video.ExStream.lossGroup.sent]).head (by decide +kernel)
  obtain ⟨l, p1, p2, p3⟩ := packets_exist [⟨none, bitsOf 16 0⟩, ⟨some sl, Video.GapEx.b ++ Video.GapEx.p⟩, ⟨none, bitsOf 16 0x01B3⟩,
      ⟨some sl, bitsOf 16 0x7777 ++ (bitsOf 8 0x77 ++ Video.GapEx.p)⟩, ⟨none, Video.GapEx.m⟩]
    (fun s hs => by
      simp only [List.mem_cons, List.not_mem_nil, or_false] at hs
      rcases hs with rfl | rfl | rfl | rfl | rfl <;> decide +kernel) []
    (bits ++ (bitsOf 32 0x1B7 ++ List.replicate pad false)) rfl (by
      simp only [List.length_append, List.length_replicate, length_bitsOf, pad]; omega)
  obtain ⟨l', q1, q2⟩ := p3 [false, false]
  have q3 : bitsOfBytes ((core 0x21 l').flatMap (·.2)) = Video.GapEx.parts.flatten ++ (bits ++ (bitsOf 32 0x1B7 ++ List.replicate pad false)) := by
    rw [q2]; rfl
  refine ⟨bits, _, imgs, l, l', p1, q1, q3, h3, ?_⟩
  obtain ⟨⟨br, br', b1, b2⟩, hall⟩ := C148_lost_partial (kV := 2) p1 q1 (Nat.lt_succ_self _) (Nat.lt_succ_self _) q3 (by decide +kernel)
    Video.GapEx.parts_clean Video.ExStream.entry h (Nat.le_refl _) (Nat.lt_succ_self _)
  obtain ⟨c, br1, _, r0, frames, t, r1, r2, _⟩ := hall br br' b1 b2
  exact ⟨br, br', c, br1, frames, t, b1, b2, r0, r1, by rw [r2, h3]⟩

open Video.Spec in
/-- A stream that meets the hypotheses of `C148_transport_partial`: the end of one element and the beginning of another one (`b`, `p`) are
lost with the packets that carry them, in front of a sequence of three pictures. -/
example : ∃ (bits rest : List Bool) (imgs : List Image) (l l' : List (Pkt × List UInt8)), (∀ x ∈ l, Piece 0x21 x.1 x.2) ∧ l'.Sublist l ∧
    bitsOfBytes ((core 0x21 l).flatMap (·.2)) = Video.GapEx.a ++ (Video.GapEx.b ++ Video.GapEx.p ++ (Video.GapEx.m ++ (bits ++ (bitsOf 32 0x1B7 ++ rest)))) ∧
    bitsOfBytes ((core 0x21 l').flatMap (·.2)) = Video.GapEx.a ++ (Video.GapEx.m ++ (bits ++ (bitsOf 32 0x1B7 ++ rest))) ∧ imgs.length = 3 ∧
    ∃ br br' s3 frames t, IsSource (puReads (l.length + 1) 0x21 (stream l')) br ∧ IsSource (pesReads (l.length + 1) br) br' ∧
      Video.nexts (bits.length + 1) 2 imgs.length s3 = (.ok frames, t) ∧ frames.length = 3 := by
  obtain ⟨bits, imgs, h, h3⟩ := Video.ExStream.stream_at (Video.GapEx.a.length + Video.GapEx.m.length)
  let pad := 8 - (bits.length % 8)
  obtain ⟨l, p1, p2, p3⟩ := packets_exist [⟨some ((Video.Spec.allSlices [Video.ExStream.lossGroup.sent]).head (by decide +kernel)), Video.GapEx.b ++ Video.GapEx.p⟩]
    (fun s hs => by rw [List.mem_singleton.mp hs]; show (Video.GapEx.b ++ Video.GapEx.p).length % 8 = 0; decide +kernel) Video.GapEx.a
    (Video.GapEx.m ++ (bits ++ (bitsOf 32 0x1B7 ++ List.replicate pad false))) (by decide +kernel) (by
      have : Video.GapEx.m.length = 40 := by decide +kernel
      simp only [List.length_append, List.length_replicate, length_bitsOf, pad, this]; omega)
  obtain ⟨l', q1, q2⟩ := p3 [false]
  have q3 : bitsOfBytes ((core 0x21 l').flatMap (·.2)) = Video.GapEx.a ++ (Video.GapEx.m ++ (bits ++ (bitsOf 32 0x1B7 ++ List.replicate pad false))) := by
    rw [q2]; rfl
  refine ⟨bits, _, imgs, l, l', p1, q1, by rw [p2]; simp, q3, h3, ?_⟩
  obtain ⟨⟨br, br', b1, b2⟩, hall⟩ := C148_transport_partial (a1 := []) (kV := 2) p1 q1 (Nat.lt_succ_self _) (Nat.lt_succ_self _) q3 (by decide +kernel) (by decide +kernel)
    Video.GapEx.first Video.GapEx.second (.inr (by decide)) (.inr (by decide)) Video.ExStream.entry h (Nat.le_refl _) (Nat.lt_succ_self _)
  obtain ⟨s1, _, s3, _, frames, t, r1, r2, _⟩ := hall br br' b1 b2
  exact ⟨br, br', s3, frames, t, b1, b2, r1, by rw [r2, h3]⟩

open Video.Spec in
/-- C147 for program streams, in packs of any size: the recording begins in the middle of a group of pictures header. -/
example (n : Nat) (hn : n + 1 < 65533) : ∃ (fuel : Nat) (br : BR) (s : Video.VS) (frames : List Video.Frame) (t : Video.VS) (ps : List PS.Spec.Pack),
    IsSource (packReads (PS.Spec.encProgram ps ++ [])) br ∧
    Video.VS.lift (Video.alignTo 0x1B3) (Video.VS.new br) = (.ok (), s) ∧ Video.nexts fuel 2 3 s = (.ok frames, t) := by
  obtain ⟨bits, imgs, h, h3⟩ := Video.ExStream.stream_at Video.CodeEx.skip.length
  let pad := 8 - (bits.length % 8)
  obtain ⟨c, hc⟩ := bytes_of (l := Video.CodeEx.skip ++ (bits ++ (bitsOf 32 0x1B7 ++ List.replicate pad false))) (by
    have := Video.CodeEx.skip8
    simp only [List.length_append, List.length_replicate, length_bitsOf, pad]; omega)
  obtain ⟨i1, i2⟩ := packsOf_spec n hn c.length c (Nat.le_refl _)
  obtain ⟨⟨br, hbr⟩, hall⟩ := C147_program_partial (ps := packsOf n c.length c) (tail := []) (fuelV := bits.length + 1) (kV := 2)
    (fun p hp => (i1 p hp).1) (fun p hp => (i1 p hp).2) (by rw [i2, hc]) Video.CodeEx.skip8 Video.CodeEx.cut (.inl ⟨by decide +kernel, by decide⟩)
    Video.ExStream.entry h (Nat.le_refl _) (Nat.lt_succ_self _)
  obtain ⟨s, s1, frames, t, s2, _⟩ := hall br hbr
  exact ⟨_, br, s, frames, t, _, hbr, s1, by rw [← h3]; exact s2⟩

open Video.Spec in
/-- C147 for transport streams, with noise, in two PES packets. -/
example (n : Nat) : ∃ (fuel : Nat) (br br' : BR) (s : Video.VS) (frames : List Video.Frame) (t : Video.VS) (l : List (List UInt8 × Pkt)) (e : List UInt8),
    IsSource (puReads fuel 0x21 (noisy l e)) br ∧ IsSource (pesReads 9 br) br' ∧
    Video.VS.lift (Video.alignTo 0x1B3) (Video.VS.new br') = (.ok (), s) ∧ Video.nexts fuel 2 3 s = (.ok frames, t) := by
  obtain ⟨bits, imgs, h, h3⟩ := Video.ExStream.stream_at Video.CodeEx.skip.length
  let pad := 8 - (bits.length % 8)
  obtain ⟨c, hc⟩ := bytes_of (l := Video.CodeEx.skip ++ (bits ++ (bitsOf 32 0x1B7 ++ List.replicate pad false))) (by
    have := Video.CodeEx.skip8
    simp only [List.length_append, List.length_replicate, length_bitsOf, pad]; omega)
  obtain ⟨pre, gs, hcar⟩ := exists_carries 0x21 (by decide) [openUnit (c.take n), openUnit (c.drop n)] (by
    intro u hu
    simp only [List.mem_cons, List.not_mem_nil, or_false] at hu
    rcases hu with rfl | rfl <;> exact openUnit_wf _)
  obtain ⟨l, e, hw, hl, hx, he⟩ := exists_noise _ hcar.legal
  obtain ⟨⟨br, hbr, br', hbr'⟩, hall⟩ := C147_transport_partial (fuel := (pre ++ (gs.map fun g => g.1 :: g.2).flatten).length + bits.length + 1)
    (fuel' := 9) (fuelV := (pre ++ (gs.map fun g => g.1 :: g.2).flatten).length + bits.length + 1) (kV := 2) hcar (by
      intro u hu
      simp only [List.mem_cons, List.not_mem_nil, or_false] at hu
      rcases hu with rfl | rfl <;> rfl) hw hl (by omega) (by simp [count, openUnit])
    (rest := List.replicate pad false) (by simp [PesUnit.payload, openUnit, pkt, List.flatMap_cons, hc]) Video.CodeEx.skip8
    Video.CodeEx.cut (.inl ⟨by decide +kernel, by decide⟩) Video.ExStream.entry h (Nat.le_refl _) (by omega)
  obtain ⟨s, s1, frames, t, s2, _⟩ := hall br br' hbr hbr'
  exact ⟨_, br, br', s, frames, t, l, e, hbr, hbr', s1, by rw [← h3]; exact s2⟩

end Mpeg.Pipe
