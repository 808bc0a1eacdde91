/-
C89 on the whole chain; C90: tuning in to a transport or program stream; C88 on the whole chain.
-/
import Verif.Pipe.ProgramProps
import Verif.TS.NoiseProps
import Verif.Video.RecoverProps
set_option linter.all false
namespace Mpeg.Pipe
open PES.Spec TS.Spec

/-- The bit reader under the PES reader does not depend on the noise. -/
theorem noise_reads {pre : List Pkt} {gs : List (Pkt × List Pkt)} {l : List (List UInt8 × Pkt)} {t : List UInt8} (hw : NoisyWF l t)
    (hl : l.map (·.2) = pre ++ (gs.map fun g => g.1 :: g.2).flatten) (fuel k : Nat) :
    puReads fuel k (noisy l t) = puReads fuel k (tsBits pre gs) := by
  have hc : clean l = tsBits pre gs := by
    unfold clean tsBits
    rw [← hl, List.map_map]
    rfl
  funext ns
  unfold puReads
  rw [TS.C89_unit_reader hw, hc]

/-- The bit reader under the video decoder, for transport streams. -/
theorem ts_source {k fuel fuel' : Nat} {pre : List Pkt} {gs : List (Pkt × List Pkt)} {us : List PesUnit}
    (h : Carries k pre gs us) (ho : ∀ u ∈ us, u.last.isSome)
    (hf : (pre ++ (gs.map fun g => g.1 :: g.2).flatten).length < fuel) (hf' : count us < fuel') :
    ∀ br, IsSource (puReads fuel k (tsBits pre gs)) br →
      IsSource (pesReads fuel' br) ⟨bitsOfBytes (us.flatMap (·.payload)), 0, .eof, []⟩ := by
  intro br hbr
  refine ⟨_, .eof, [], rfl, fun ns _ => ?_⟩
  rw [((C61_partial h hf hf').2 br hbr).1, pieces_open us ho]
  rfl

/-- **C89** on the whole chain (partial: as C76): the pictures do not change if there are bytes between the transport packets
that belong to no packet. -/
theorem C89_pictures_partial {k fuel fuel' fuelV kV : Nat} {pre : List Pkt} {gs : List (Pkt × List Pkt)} {us : List PesUnit}
    (h : Carries k pre gs us) (ho : ∀ u ∈ us, u.last.isSome)
    {l : List (List UInt8 × Pkt)} {t : List UInt8} (hw : NoisyWF l t)
    (hl : l.map (·.2) = pre ++ (gs.map fun g => g.1 :: g.2).flatten)
    (hf : (pre ++ (gs.map fun g => g.1 :: g.2).flatten).length < fuel) (hf' : count us < fuel')
    {W H lead : Nat} {vs : List Video.Spec.CGroup} {bits rest : List Bool} {imgs : List Video.Spec.Image}
    (hs : bitsOfBytes (us.flatMap (·.payload)) =
      List.replicate (8 * lead) false ++ (bits ++ (bitsOf 32 0x1B7 ++ rest)))
    (hv : Video.Spec.GroupsCode W H 0 none none (8 * lead) vs bits imgs) (hvs : vs ≠ []) (hk : 2 ≤ kV)
    (hfv : bits.length < fuelV) :
    (∃ br, IsSource (puReads fuel k (noisy l t)) br ∧ ∃ br', IsSource (pesReads fuel' br) br') ∧
    ∀ br br', IsSource (puReads fuel k (noisy l t)) br → IsSource (pesReads fuel' br) br' →
      ∃ frames t, Video.nexts fuelV kV imgs.length (Video.VS.new br') = (.ok frames, t) ∧ frames.length = imgs.length ∧
        (∀ i (h1 : i < frames.length) (h2 : i < imgs.length), Video.Spec.Shows W H frames[i] imgs[i]) ∧
        (Video.VS.next fuelV kV t).1 = .err .eos := by
  rw [noise_reads hw hl]
  exact C76_partial h ho hf hf' hs hv hvs hk hfv

/-- What the decoder does from the middle of an elementary stream. -/
theorem tune {kV fuelV W H base : Nat} {σ : Option Video.Spec.Ctx} {prev : Option Video.Spec.Image} {vs : List Video.Spec.CGroup}
    {skip bits rest : List Bool} {imgs : List Video.Spec.Image} (hk : 2 ≤ kV) (hent : Video.Spec.Entry vs) (h8 : skip.length % 8 = 0)
    (hno : ∀ j, 8 * j < skip.length → ((skip ++ (bits ++ (bitsOf 32 0x1B7 ++ rest))).drop (8 * j)).take 32 ≠ bitsOf 32 0x1B3)
    (hv : Video.Spec.GroupsCode W H base σ prev skip.length vs bits imgs) (hfv : bits.length < fuelV) :
    ∃ s, Video.VS.lift (Video.alignTo 0x1B3) (Video.VS.new ⟨skip ++ (bits ++ (bitsOf 32 0x1B7 ++ rest)), 0, .eof, []⟩) = (.ok (), s) ∧
      ∃ frames t, Video.nexts fuelV kV imgs.length s = (.ok frames, t) ∧ frames.length = imgs.length ∧
        (∀ i (h1 : i < frames.length) (h2 : i < imgs.length), Video.Spec.Shows W H frames[i] imgs[i]) ∧
        (Video.VS.next fuelV kV t).1 = .err .eos := by
  have hfb : ∀ x : List Bool, Video.Spec.fromBoundary (Video.VS.new ⟨x, 0, .eof, []⟩).br = x := by
    intro x
    show List.drop (Video.Spec.padding 0) x = x
    rw [show Video.Spec.padding 0 = 0 by decide]
    rfl
  obtain ⟨s1, g0, w, frames, t, g1, _, _, g4, g5, g6, g7, _⟩ := Video.C87_seek_partial (fuel := fuelV) (rest := rest) hk hent
    (Video.VS.new ⟨skip ++ (bits ++ (bitsOf 32 0x1B7 ++ rest)), 0, .eof, []⟩) (skip := skip) (hfb _) h8 (by rw [hfb]; exact hno)
    (by
      have : (Video.VS.new ⟨skip ++ (bits ++ (bitsOf 32 0x1B7 ++ rest)), 0, .eof, []⟩).br.pos +
        Video.Spec.padding (Video.VS.new ⟨skip ++ (bits ++ (bitsOf 32 0x1B7 ++ rest)), 0, .eof, []⟩).br.pos + skip.length = skip.length := by
        show 0 + Video.Spec.padding 0 + skip.length = _
        rw [show Video.Spec.padding 0 = 0 by decide]
        omega
      rw [this]; exact hv) hfv
  have hw : w = [] := g4 rfl
  subst hw
  simp only [List.length_nil, Nat.zero_add, List.nil_append] at g1
  exact ⟨s1, g0, frames, t, g1, g5, g6, g7⟩

/-- **C90** for transport streams (partial): tuning in.  The recording of a transport stream begins anywhere: with the rest of a
packet and packets in the middle of a payload unit (`l`, `pre`), and the first whole unit begins in the middle of the
elementary stream (`skip`).  After `AlignTo` with the sequence header code the calls of `Next` return exactly the pictures from
the next entry point on, in display order, the same pictures as in a decoding from the beginning (`base`, `σ`, `prev` are what
the missing part of the stream has left), and then the end of the stream.

Partial: as C76 and C87. -/
theorem C90_partial {k fuel fuel' fuelV kV : Nat} {pre : List Pkt} {gs : List (Pkt × List Pkt)} {us : List PesUnit}
    (h : Carries k pre gs us) (ho : ∀ u ∈ us, u.last.isSome)
    {l : List (List UInt8 × Pkt)} {t : List UInt8} (hw : NoisyWF l t)
    (hl : l.map (·.2) = pre ++ (gs.map fun g => g.1 :: g.2).flatten)
    (hf : (pre ++ (gs.map fun g => g.1 :: g.2).flatten).length < fuel) (hf' : count us < fuel')
    {W H base : Nat} {σ : Option Video.Spec.Ctx} {prev : Option Video.Spec.Image} {vs : List Video.Spec.CGroup}
    {skip bits rest : List Bool} {imgs : List Video.Spec.Image}
    (hs : bitsOfBytes (us.flatMap (·.payload)) = skip ++ (bits ++ (bitsOf 32 0x1B7 ++ rest)))
    (h8 : skip.length % 8 = 0)
    (hno : ∀ j, 8 * j < skip.length → ((skip ++ (bits ++ (bitsOf 32 0x1B7 ++ rest))).drop (8 * j)).take 32 ≠ bitsOf 32 0x1B3)
    (hent : Video.Spec.Entry vs) (hv : Video.Spec.GroupsCode W H base σ prev skip.length vs bits imgs) (hk : 2 ≤ kV)
    (hfv : bits.length < fuelV) :
    (∃ br, IsSource (puReads fuel k (noisy l t)) br ∧ ∃ br', IsSource (pesReads fuel' br) br') ∧
    ∀ br br', IsSource (puReads fuel k (noisy l t)) br → IsSource (pesReads fuel' br) br' →
      ∃ s, Video.VS.lift (Video.alignTo 0x1B3) (Video.VS.new br') = (.ok (), s) ∧
      ∃ frames t, Video.nexts fuelV kV imgs.length s = (.ok frames, t) ∧ frames.length = imgs.length ∧
        (∀ i (h1 : i < frames.length) (h2 : i < imgs.length), Video.Spec.Shows W H frames[i] imgs[i]) ∧
        (Video.VS.next fuelV kV t).1 = .err .eos := by
  rw [noise_reads hw hl]
  refine ⟨⟨_, pu_source h hf, _, ts_source h ho hf hf' _ (pu_source h hf)⟩, fun br br' h1 h2 => ?_⟩
  obtain rfl := h2.unique (ts_source h ho hf hf' br h1)
  rw [hs]
  exact tune hk hent h8 hno hv hfv

/-- **C90** for program streams (partial: as C86 and C87). -/
theorem C90_program_partial {ps : List PS.Spec.Pack} {tail : List Bool} {fuelV kV : Nat} (hw : ∀ p ∈ ps, p.WF)
    (hne : ∀ p ∈ ps, p.items ≠ [])
    {W H base : Nat} {σ : Option Video.Spec.Ctx} {prev : Option Video.Spec.Image} {vs : List Video.Spec.CGroup}
    {skip bits rest : List Bool} {imgs : List Video.Spec.Image}
    (hs : bitsOfBytes (ps.flatMap PS.Spec.Pack.payload) = skip ++ (bits ++ (bitsOf 32 0x1B7 ++ rest)))
    (h8 : skip.length % 8 = 0)
    (hno : ∀ j, 8 * j < skip.length → ((skip ++ (bits ++ (bitsOf 32 0x1B7 ++ rest))).drop (8 * j)).take 32 ≠ bitsOf 32 0x1B3)
    (hent : Video.Spec.Entry vs) (hv : Video.Spec.GroupsCode W H base σ prev skip.length vs bits imgs) (hk : 2 ≤ kV)
    (hfv : bits.length < fuelV) :
    (∃ br, IsSource (packReads (PS.Spec.encProgram ps ++ tail)) br) ∧
    ∀ br, IsSource (packReads (PS.Spec.encProgram ps ++ tail)) br →
      ∃ s, Video.VS.lift (Video.alignTo 0x1B3) (Video.VS.new br) = (.ok (), s) ∧
      ∃ frames t, Video.nexts fuelV kV imgs.length s = (.ok frames, t) ∧ frames.length = imgs.length ∧
        (∀ i (h1 : i < frames.length) (h2 : i < imgs.length), Video.Spec.Shows W H frames[i] imgs[i]) ∧
        (Video.VS.next fuelV kV t).1 = .err .eos := by
  refine ⟨⟨_, pack_source ps hw hne tail⟩, fun br h => ?_⟩
  obtain rfl := h.unique (pack_source ps hw hne tail)
  rw [hs]
  exact tune hk hent h8 hno hv hfv

/-- **C88** on both chains (partial: as C88, C76 and C86): the programs of a transport stream may be spliced from several
sequences, each with its own picture size. -/
theorem C88_transport_partial {k fuel fuel' fuelV kV : Nat} {pre : List Pkt} {gs : List (Pkt × List Pkt)} {us : List PesUnit}
    (h : Carries k pre gs us) (ho : ∀ u ∈ us, u.last.isSome)
    {l : List (List UInt8 × Pkt)} {t : List UInt8} (hw : NoisyWF l t)
    (hl : l.map (·.2) = pre ++ (gs.map fun g => g.1 :: g.2).flatten)
    (hf : (pre ++ (gs.map fun g => g.1 :: g.2).flatten).length < fuel) (hf' : count us < fuel')
    {bits rest : List Bool} {seqs : List (Nat × Nat × List Video.Spec.Image)}
    (hs : bitsOfBytes (us.flatMap (·.payload)) = bits ++ rest) (hq : Video.Spec.Sequences 0 bits seqs) (hk : 2 ≤ kV)
    (hfv : bits.length < fuelV) :
    ∀ br br', IsSource (puReads fuel k (noisy l t)) br → IsSource (pesReads fuel' br) br' →
      ∃ frames t, Video.Plays fuelV kV (Video.VS.new br') frames t ∧ Video.AllSequences frames seqs := by
  rw [noise_reads hw hl]
  intro br br' h1 h2
  obtain rfl := h2.unique (ts_source h ho hf hf' br h1)
  rw [hs]
  obtain ⟨frames, t, g1, g2, _⟩ := Video.C88_partial (stop := .eof) (later := []) (rest := rest) hk hq hfv (by decide)
    (Video.VS.new ⟨bits ++ rest, 0, .eof, []⟩) rfl rfl
  exact ⟨frames, t, g1, g2⟩

theorem C88_program_partial {ps : List PS.Spec.Pack} {tail : List Bool} {fuelV kV : Nat} (hw : ∀ p ∈ ps, p.WF)
    (hne : ∀ p ∈ ps, p.items ≠ []) {bits rest : List Bool} {seqs : List (Nat × Nat × List Video.Spec.Image)}
    (hs : bitsOfBytes (ps.flatMap PS.Spec.Pack.payload) = bits ++ rest) (hq : Video.Spec.Sequences 0 bits seqs) (hk : 2 ≤ kV)
    (hfv : bits.length < fuelV) :
    ∀ br, IsSource (packReads (PS.Spec.encProgram ps ++ tail)) br →
      ∃ frames t, Video.Plays fuelV kV (Video.VS.new br) frames t ∧ Video.AllSequences frames seqs := by
  intro br h
  obtain rfl := h.unique (pack_source ps hw hne tail)
  rw [hs]
  obtain ⟨frames, t, g1, g2, _⟩ := Video.C88_partial (stop := .eof) (later := []) (rest := rest) hk hq hfv (by decide)
    (Video.VS.new ⟨bits ++ rest, 0, .eof, []⟩) rfl rfl
  exact ⟨frames, t, g1, g2⟩

/-! ### the hypotheses can be met -/

/-- Five bytes of something else, then the stream of three pictures (C75). -/
theorem skip_stream : ∃ (bits rest : List Bool) (imgs : List Video.Spec.Image) (c : List UInt8),
    bitsOfBytes c = bitsOf 40 0x1B2 ++ (bits ++ (bitsOf 32 0x1B7 ++ rest)) ∧
    (∀ j, 8 * j < (bitsOf 40 0x1B2).length →
      ((bitsOf 40 0x1B2 ++ (bits ++ (bitsOf 32 0x1B7 ++ rest))).drop (8 * j)).take 32 ≠ bitsOf 32 0x1B3) ∧
    Video.Spec.GroupsCode 1 1 0 none none (bitsOf 40 0x1B2).length Video.ExStream.three bits imgs ∧ imgs.length = 3 := by
  obtain ⟨bits, imgs, h, h3⟩ := Video.ExStream.stream_at 40
  obtain ⟨u, hu⟩ := Video.entry_starts Video.ExStream.entry h
  let pad := 8 - (bits.length % 8)
  obtain ⟨c, hc⟩ := bytes_of (l := bitsOf 40 0x1B2 ++ (bits ++ (bitsOf 32 0x1B7 ++ List.replicate pad false))) (by
    simp only [List.length_append, List.length_replicate, length_bitsOf, pad]; omega)
  refine ⟨bits, List.replicate pad false, imgs, c, hc, fun j hj => ?_, by rw [length_bitsOf]; exact h, h3⟩
  have hj5 : j < 5 := by rw [length_bitsOf] at hj; omega
  have : ∀ x : List Bool, ∀ j < 5, ((bitsOf 40 0x1B2 ++ (bitsOf 32 0x1B3 ++ x)).drop (8 * j)).take 32 ≠ bitsOf 32 0x1B3 := by
    intro x j hj
    rw [← List.append_assoc, List.drop_append_of_le_length (by simp [length_bitsOf]; omega),
      List.take_append_of_le_length (by simp [length_bitsOf]; omega)]
    revert j
    decide +kernel
  rw [hu]
  simpa only [List.append_assoc] using this _ j hj5

/-- Any well-formed packets can be surrounded by noise. -/
theorem exists_noise (ps : List Pkt) (h : ∀ p ∈ ps, p.WF ∧ p.body.Plain) :
    ∃ l t, NoisyWF l t ∧ l.map (·.2) = ps ∧ (∀ x ∈ l, x.1 ≠ []) ∧ t ≠ [] := by
  refine ⟨ps.map fun p => ([0, 1], p), [0x46], ⟨fun x hx => ?_, ?_, by decide⟩, by simp [List.map_map, Function.comp_def], ?_, by simp⟩
  · obtain ⟨p, hp, rfl⟩ := List.mem_map.mp hx
    exact ⟨⟨(by decide : ∀ b ∈ ([0, 1] : List UInt8), b ≠ 0x47), (by decide : ([0, 1] : List UInt8).length ≤ 187)⟩, h p hp⟩
  · decide
  · intro x hx
    obtain ⟨p, hp, rfl⟩ := List.mem_map.mp hx
    simp

/-- C90: a transport stream with noise, the elementary stream begins with other data and is cut anywhere. -/
example (n : Nat) : ∃ (fuel : Nat) (br br' : BR) (s : Video.VS) (frames : List Video.Frame) (t : Video.VS) (pre : List Pkt) (gs : List (Pkt × List Pkt)) (us : List PesUnit) (l : List (List UInt8 × Pkt))
    (e : List UInt8), Carries 0x21 pre gs us ∧ us.length = 2 ∧ l.map (·.2) = pre ++ (gs.map fun g => g.1 :: g.2).flatten ∧
    (∀ x ∈ l, x.1 ≠ []) ∧ e ≠ [] ∧ IsSource (puReads fuel 0x21 (noisy l e)) br ∧ IsSource (pesReads 9 br) br' ∧
    Video.VS.lift (Video.alignTo 0x1B3) (Video.VS.new br') = (.ok (), s) ∧ Video.nexts fuel 2 3 s = (.ok frames, t) := by
  obtain ⟨bits, rest, imgs, c, hc, hno, hv, h3⟩ := skip_stream
  obtain ⟨pre, gs, hcar⟩ := exists_carries 0x21 (by decide) [openUnit (c.take n), openUnit (c.drop n)] (by
    intro u hu
    simp only [List.mem_cons, List.not_mem_nil, or_false] at hu
    rcases hu with rfl | rfl <;> exact openUnit_wf _)
  obtain ⟨l, e, hw, hl, hx, he⟩ := exists_noise _ hcar.legal
  obtain ⟨⟨br, hbr, br', hbr'⟩, hall⟩ := C90_partial (fuel := (pre ++ (gs.map fun g => g.1 :: g.2).flatten).length + bits.length + 1)
    (fuel' := 9) (fuelV := (pre ++ (gs.map fun g => g.1 :: g.2).flatten).length + bits.length + 1) (kV := 2) hcar (by
      intro u hu
      simp only [List.mem_cons, List.not_mem_nil, or_false] at hu
      rcases hu with rfl | rfl <;> rfl) hw hl (by omega) (by simp [count, openUnit])
    (skip := bitsOf 40 0x1B2) (rest := rest) (by simp [PesUnit.payload, openUnit, pkt, List.flatMap_cons, hc]) (by decide) hno
    Video.ExStream.entry hv (Nat.le_refl _) (by omega)
  obtain ⟨s, s1, frames, t, s2, _⟩ := hall br br' hbr hbr'
  exact ⟨_, br, br', s, frames, t, pre, gs, _, l, e, hcar, rfl, hl, hx, he, hbr, hbr', s1, by rw [← h3]; exact s2⟩

/-- C90 for program streams, in packs of any size. -/
example (n : Nat) (hn : n + 1 < 65533) : ∃ (fuel : Nat) (br : BR) (s : Video.VS) (frames : List Video.Frame) (t : Video.VS) (ps : List PS.Spec.Pack),
    IsSource (packReads (PS.Spec.encProgram ps ++ [])) br ∧
    Video.VS.lift (Video.alignTo 0x1B3) (Video.VS.new br) = (.ok (), s) ∧ Video.nexts fuel 2 3 s = (.ok frames, t) := by
  obtain ⟨bits, rest, imgs, c, hc, hno, hv, h3⟩ := skip_stream
  obtain ⟨i1, i2⟩ := packsOf_spec n hn c.length c (Nat.le_refl _)
  obtain ⟨⟨br, hbr⟩, hall⟩ := C90_program_partial (ps := packsOf n c.length c) (tail := []) (fuelV := bits.length + 1) (kV := 2)
    (fun p hp => (i1 p hp).1) (fun p hp => (i1 p hp).2) (skip := bitsOf 40 0x1B2) (rest := rest) (by rw [i2, hc]) (by decide) hno
    Video.ExStream.entry hv (Nat.le_refl _) (Nat.lt_succ_self _)
  obtain ⟨s, s1, frames, t, s2, _⟩ := hall br hbr
  exact ⟨_, br, s, frames, t, _, hbr, s1, by rw [← h3]; exact s2⟩

/-- C88: two sequences, in packs of any size. -/
example (n : Nat) (hn : n + 1 < 65533) : ∃ (fuel : Nat) (br : BR) (frames : List (List Video.Frame)) (t : Video.VS) (ps : List PS.Spec.Pack),
    IsSource (packReads (PS.Spec.encProgram ps ++ [])) br ∧
    Video.Plays fuel 2 (Video.VS.new br) frames t ∧ frames.length = 2 := by
  obtain ⟨b1, i1, h1, l1⟩ := Video.ExStream.stream_at 0
  obtain ⟨b2, i2, h2, l2⟩ := Video.ExStream.stream_at (0 + b1.length + 32)
  have hq := Video.Spec.Sequences.cons Video.ExStream.entry h1 (.cons Video.ExStream.entry h2 .nil)
  generalize hb : b1 ++ (bitsOf 32 0x1B7 ++ (b2 ++ (bitsOf 32 0x1B7 ++ []))) = bits at hq
  let pad := 8 - (bits.length % 8)
  obtain ⟨c, hc⟩ := bytes_of (l := bits ++ List.replicate pad false) (by
    simp only [List.length_append, List.length_replicate, pad]; omega)
  obtain ⟨j1, j2⟩ := packsOf_spec n hn c.length c (Nat.le_refl _)
  have hsrc := pack_source (packsOf n c.length c) (fun p hp => (j1 p hp).1) (fun p hp => (j1 p hp).2) []
  obtain ⟨frames, t, g1, g2⟩ := C88_program_partial (ps := packsOf n c.length c) (tail := []) (fuelV := bits.length + 1) (kV := 2)
    (fun p hp => (j1 p hp).1) (fun p hp => (j1 p hp).2) (by rw [j2, hc]) hq (Nat.le_refl _) (Nat.lt_succ_self _) _ hsrc
  refine ⟨_, _, frames, t, _, hsrc, g1, ?_⟩
  cases g2 with
  | cons a _ m =>
    cases m with
    | cons b _ m => cases m; rfl

end Mpeg.Pipe
