/-
C86: program streams down to pictures; both chains against the exact decoder.
-/
import Verif.Pipe.Props
import Verif.PS.Props
import Verif.Video.IsoProps
set_option linter.all false
namespace Mpeg.Pipe
open PES.Spec TS.Spec

/-- what the Reads of `ps.NewPackReader(r)` return if `r` delivers the bits -/
def packReads (bits : List Bool) (ns : List Nat) : Res (List (List UInt8 × Option Err)) :=
  (PS.PackReader.reads ns (PS.PackReader.new (BR.ofBits bits))).1

theorem deliver_segs (c : List UInt8) (e : Err) : ∀ ns, deliver c e ns = deliverSegs [(c, e)] ns := by
  intro ns
  induction ns generalizing c with
  | nil => rfl
  | cons n ns ih =>
    unfold deliver deliverSegs
    split
    · rw [ih]
    · rw [show deliverSegs [] ns = [] by cases ns <;> rfl]

/-- The bit reader on top of the pack reader is the one over the payloads of all packets. -/
theorem pack_source (ps : List PS.Spec.Pack) (hw : ∀ p ∈ ps, p.WF) (hne : ∀ p ∈ ps, p.items ≠ []) (tail : List Bool) :
    IsSource (packReads (PS.Spec.encProgram ps ++ tail)) ⟨bitsOfBytes (ps.flatMap PS.Spec.Pack.payload), 0, .eof, []⟩ := by
  refine ⟨_, .eof, [], rfl, fun ns _ => ?_⟩
  obtain ⟨r', h⟩ := PS.C31_pack_reader_partial ps hw hne tail .eof [] ns
  unfold packReads
  rw [← deliver_segs]
  exact congrArg Prod.fst h

/-- **C86** (partial): the chain for program streams.  The payloads of the packets of a program stream, in order, are a
video stream as in C75, cut anywhere into packets and packs, with padding packets anywhere.  Then consecutive calls of
`Next` of the video decoder on top of the pack reader return exactly the pictures of the reference decoder in display
order, and then the end of the stream.

Partial: every pack has a packet and the program has its end code (else false, C31); video streams as in C75; the pack
reader does not select a stream, so the packets of the program are those of the video and padding (`C86_audio_false`). -/
theorem C86_partial {ps : List PS.Spec.Pack} {tail : List Bool} {fuelV kV : Nat} (hw : ∀ p ∈ ps, p.WF)
    (hne : ∀ p ∈ ps, p.items ≠ []) {W H lead : Nat} {vs : List Video.Spec.CGroup} {bits rest : List Bool}
    {imgs : List Video.Spec.Image}
    (hs : bitsOfBytes (ps.flatMap PS.Spec.Pack.payload) =
      List.replicate (8 * lead) false ++ (bits ++ (bitsOf 32 0x1B7 ++ rest)))
    (hv : Video.Spec.GroupsCode W H 0 none none (8 * lead) vs bits imgs) (hvs : vs ≠ []) (hk : 2 ≤ kV)
    (hfv : bits.length < fuelV) :
    (∃ br, IsSource (packReads (PS.Spec.encProgram ps ++ tail)) br) ∧
    ∀ br, IsSource (packReads (PS.Spec.encProgram ps ++ tail)) br →
      ∃ frames t, Video.nexts fuelV kV imgs.length (Video.VS.new br) = (.ok frames, t) ∧ frames.length = imgs.length ∧
        (∀ i (h1 : i < frames.length) (h2 : i < imgs.length), Video.Spec.Shows W H frames[i] imgs[i]) ∧
        (Video.VS.next fuelV kV t).1 = .err .eos := by
  refine ⟨⟨_, pack_source ps hw hne tail⟩, fun br h => ?_⟩
  obtain rfl := h.unique (pack_source ps hw hne tail)
  obtain ⟨frames, t, g1, g2, g3, g4, _⟩ := Video.C75_partial (stop := .eof) (later := []) (rest := rest) hk hvs hv hfv
  refine ⟨frames, t, ?_, g2, g3, g4⟩
  rw [hs]
  exact g1

/-- **C86**, the luma of the pictures against the exact decoder, with the bounds of C85. -/
theorem C86_exact_partial {ps : List PS.Spec.Pack} {tail : List Bool} {fuelV kV : Nat} (hw : ∀ p ∈ ps, p.WF)
    (hne : ∀ p ∈ ps, p.items ≠ []) {W H lead : Nat} {vs : List Video.Spec.CGroup} {bits rest : List Bool}
    {imgs : List Video.Spec.Image}
    (hs : bitsOfBytes (ps.flatMap PS.Spec.Pack.payload) =
      List.replicate (8 * lead) false ++ (bits ++ (bitsOf 32 0x1B7 ++ rest)))
    (hv : Video.Spec.GroupsCode W H 0 none none (8 * lead) vs bits imgs) (hvs : vs ≠ []) (hk : 2 ≤ kV)
    (hfv : bits.length < fuelV)
    (hF : ∀ F ∈ Video.Spec.streamBlocks vs, Video.Spec.Mild F) :
    ∀ br, IsSource (packReads (PS.Spec.encProgram ps ++ tail)) br →
      ∃ frames t, Video.nexts fuelV kV (Video.Spec.isoGroups none none vs).length (Video.VS.new br) = (.ok frames, t) ∧
        frames.length = (Video.Spec.isoGroups none none vs).length ∧
        ∀ i (h0 : i < (Video.Spec.bounds 0 vs).length) (h1 : i < frames.length)
          (h2 : i < (Video.Spec.isoGroups none none vs).length), ∀ x < 16 * W, ∀ y < 16 * H,
            Video.Spec.near (Video.Spec.bounds 0 vs)[i] (Video.Spec.sampleOf frames[i] 0 x y)
              ((Video.Spec.isoGroups none none vs)[i] 0 x y) := by
  intro br h
  obtain rfl := h.unique (pack_source ps hw hne tail)
  obtain ⟨frames, t, g1, g2, _, g4, _⟩ := Video.C85_partial (stop := .eof) (later := []) (rest := rest) hk hvs hv hfv hF
  refine ⟨frames, t, ?_, g2, fun i h0 h1 h2 x hx y hy => g4 i h0 h1 h2 0 (by decide) (fun h => absurd rfl h) x hx y hy⟩
  rw [hs]
  exact g1

/-- **C76**, the luma of the pictures against the exact decoder, with the bounds of C85.  Partial: as C61 and C85. -/
theorem C76_exact_partial {k fuel fuel' fuelV kV : Nat} {pre : List Pkt} {gs : List (Pkt × List Pkt)} {us : List PesUnit}
    (h : Carries k pre gs us) (ho : ∀ u ∈ us, u.last.isSome)
    (hf : (pre ++ (gs.map fun g => g.1 :: g.2).flatten).length < fuel) (hf' : count us < fuel')
    {W H lead : Nat} {vs : List Video.Spec.CGroup} {bits rest : List Bool} {imgs : List Video.Spec.Image}
    (hs : bitsOfBytes (us.flatMap (·.payload)) =
      List.replicate (8 * lead) false ++ (bits ++ (bitsOf 32 0x1B7 ++ rest)))
    (hv : Video.Spec.GroupsCode W H 0 none none (8 * lead) vs bits imgs) (hvs : vs ≠ []) (hk : 2 ≤ kV)
    (hfv : bits.length < fuelV)
    (hF : ∀ F ∈ Video.Spec.streamBlocks vs, Video.Spec.Mild F) :
    ∀ br br', IsSource (puReads fuel k (tsBits pre gs)) br → IsSource (pesReads fuel' br) br' →
      ∃ frames t, Video.nexts fuelV kV (Video.Spec.isoGroups none none vs).length (Video.VS.new br') = (.ok frames, t) ∧
        frames.length = (Video.Spec.isoGroups none none vs).length ∧
        ∀ i (h0 : i < (Video.Spec.bounds 0 vs).length) (h1 : i < frames.length)
          (h2 : i < (Video.Spec.isoGroups none none vs).length), ∀ x < 16 * W, ∀ y < 16 * H,
            Video.Spec.near (Video.Spec.bounds 0 vs)[i] (Video.Spec.sampleOf frames[i] 0 x y)
              ((Video.Spec.isoGroups none none vs)[i] 0 x y) := by
  intro br br' hbr hbr'
  obtain rfl := hbr'.unique (b' := ⟨bitsOfBytes (us.flatMap (·.payload)), 0, .eof, []⟩) ⟨_, .eof, [], rfl, fun ns _ => by
    rw [((C61_partial h hf hf').2 br hbr).1, pieces_open us ho]
    rfl⟩
  obtain ⟨frames, t, g1, g2, _, g4, _⟩ := Video.C85_partial (stop := .eof) (later := []) (rest := rest) hk hvs hv hfv hF
  refine ⟨frames, t, ?_, g2, fun i h0 h1 h2 x hx y hy => g4 i h0 h1 h2 0 (by decide) (fun h => absurd rfl h) x hx y hy⟩
  rw [hs]
  exact g1

/-- a pack with one video packet -/
def vpack (d : List UInt8) : PS.Spec.Pack := ⟨{}, [.media 0xe0 {} d]⟩

theorem vpack_wf (d : List UInt8) (h : d.length < 65533) : (vpack d).WF := by
  refine ⟨(by decide : ({} : PS.Spec.PHdr).WF), fun i hi => ?_⟩
  simp only [vpack, List.mem_cons, List.not_mem_nil, or_false] at hi
  subst hi
  refine ⟨by decide, by decide, by decide, by decide, by decide, ?_⟩
  show 3 + 0 + d.length < 65536
  omega

/-- packs of at most `n + 1` bytes -/
def packsOf (n : Nat) : Nat → List UInt8 → List PS.Spec.Pack
  | 0, d => [vpack d]
  | f + 1, d => if d.length ≤ n + 1 then [vpack d] else vpack (d.take (n + 1)) :: packsOf n f (d.drop (n + 1))

theorem packsOf_spec (n : Nat) (hn : n + 1 < 65533) : ∀ (f : Nat) (d : List UInt8), d.length ≤ f →
    (∀ p ∈ packsOf n f d, p.WF ∧ p.items ≠ []) ∧ (packsOf n f d).flatMap PS.Spec.Pack.payload = d
  | 0, d, h => by
    have : d = [] := List.eq_nil_of_length_eq_zero (by omega)
    subst this
    refine ⟨fun p hp => ?_, rfl⟩
    simp only [packsOf, List.mem_cons, List.not_mem_nil, or_false] at hp
    subst hp
    exact ⟨vpack_wf _ (by simp), by simp [vpack]⟩
  | f + 1, d, h => by
    unfold packsOf
    split
    · refine ⟨fun p hp => ?_, by simp [vpack, PS.Spec.Pack.payload, PS.Spec.Item.payload]⟩
      simp only [List.mem_cons, List.not_mem_nil, or_false] at hp
      subst hp
      exact ⟨vpack_wf _ (by omega), by simp [vpack]⟩
    · obtain ⟨i1, i2⟩ := packsOf_spec n hn f (d.drop (n + 1)) (by rw [List.length_drop]; omega)
      refine ⟨fun p hp => ?_, ?_⟩
      · simp only [List.mem_cons] at hp
        rcases hp with rfl | hp
        · exact ⟨vpack_wf _ (by rw [List.length_take]; omega), by simp [vpack]⟩
        · exact i1 p hp
      · rw [List.flatMap_cons, i2]
        simp [vpack, PS.Spec.Pack.payload, PS.Spec.Item.payload, List.take_append_drop]

/-- the hypotheses can be met: the stream of three pictures (C75), in packs of any size -/
example (n : Nat) (hn : n + 1 < 65533) : ∃ (ps : List PS.Spec.Pack) (bits rest : List Bool) (imgs : List Video.Spec.Image),
    (∀ p ∈ ps, p.WF) ∧ (∀ p ∈ ps, p.items ≠ []) ∧ bitsOfBytes (ps.flatMap PS.Spec.Pack.payload) =
      List.replicate (8 * 1) false ++ (bits ++ (bitsOf 32 0x1B7 ++ rest)) ∧
    Video.Spec.GroupsCode 1 1 0 none none (8 * 1) Video.ExStream.three bits imgs ∧ Video.ExStream.three ≠ [] ∧ imgs.length = 3 ∧
    (∀ F ∈ Video.Spec.streamBlocks Video.ExStream.three, Video.Spec.Mild F) := by
  obtain ⟨bits, imgs, h, h3⟩ := Video.ExStream.stream
  let pad := 8 - (bits.length % 8)
  obtain ⟨c, hc⟩ := bytes_of (l := List.replicate (8 * 1) false ++ (bits ++ (bitsOf 32 0x1B7 ++ List.replicate pad false))) (by
    simp only [List.length_append, List.length_replicate, length_bitsOf, pad]; omega)
  obtain ⟨i1, i2⟩ := packsOf_spec n hn c.length c (Nat.le_refl _)
  exact ⟨packsOf n c.length c, bits, List.replicate pad false, imgs, fun p hp => (i1 p hp).1, fun p hp => (i1 p hp).2,
    by rw [i2, hc], h, List.cons_ne_nil _ _, h3, Video.ExStream.three_mild⟩

/-- the call of `Next` reports an error -/
def fails (r : Res Video.Frame × Video.VS) : Bool :=
  match r.1 with
  | .err _ => true
  | _ => false

/-- **C86** is false for programs with a second stream: the pack reader hands the bytes of all streams to the video decoder.
Here an audio packet (stream 0xc0) comes in the middle of a picture; without it `Next` returns the picture, with it `Next`
reports an error. -/
theorem C86_audio_false : ∃ (a b d : List UInt8) (br : BR),
    bitsOfBytes (a ++ b) = onePicture ∧
    succeeds (Video.VS.next 1000 2 (Video.VS.new ⟨bitsOfBytes (a ++ b), 0, .eof, []⟩)) = true ∧
    (∀ p ∈ [vpack a, ⟨{}, [.media 0xc0 {} d]⟩, vpack b], p.WF ∧ p.items ≠ []) ∧
    IsSource (packReads (PS.Spec.encProgram [vpack a, ⟨{}, [.media 0xc0 {} d]⟩, vpack b] ++ [])) br ∧
    fails (Video.VS.next 1000 2 (Video.VS.new br)) = true := by
  obtain ⟨c, hc, hlen, hok, hfail⟩ : ∃ c : List UInt8, bitsOfBytes c = onePicture ∧ c.length < 65533 ∧
      succeeds (Video.VS.next 1000 2 (Video.VS.new ⟨bitsOfBytes c, 0, .eof, []⟩)) = true ∧
      fails (Video.VS.next 1000 2 (Video.VS.new ⟨bitsOfBytes (c.take 40 ++ [0, 0, 1, 2] ++ c.drop 40), 0, .eof, []⟩)) = true :=
    ⟨bytesOfBits (onePicture.length / 8) onePicture, by decide +kernel, by decide +kernel, by decide +kernel, by decide +kernel⟩
  have hwf : ∀ p ∈ [vpack (c.take 40), ⟨{}, [.media 0xc0 {} [0, 0, 1, 2]]⟩, vpack (c.drop 40)], p.WF ∧ p.items ≠ [] := by
    intro p hp
    simp only [List.mem_cons, List.not_mem_nil, or_false] at hp
    rcases hp with rfl | rfl | rfl
    · exact ⟨vpack_wf _ (by rw [List.length_take]; omega), by simp [vpack]⟩
    · refine ⟨⟨by decide, fun i hi => ?_⟩, by simp⟩
      simp only [List.mem_cons, List.not_mem_nil, or_false] at hi
      subst hi
      exact ⟨by decide, by decide, by decide, by decide, by decide, by decide⟩
    · exact ⟨vpack_wf _ (by rw [List.length_drop]; omega), by simp [vpack]⟩
  refine ⟨c.take 40, c.drop 40, [0, 0, 1, 2], _, by rw [List.take_append_drop, hc], by rw [List.take_append_drop]; exact hok,
    hwf, pack_source _ (fun p hp => (hwf p hp).1) (fun p hp => (hwf p hp).2) [], ?_⟩
  have : [vpack (c.take 40), ⟨{}, [.media 0xc0 {} [0, 0, 1, 2]]⟩, vpack (c.drop 40)].flatMap PS.Spec.Pack.payload =
      c.take 40 ++ [0, 0, 1, 2] ++ c.drop 40 := by
    simp [vpack, PS.Spec.Pack.payload, PS.Spec.Item.payload]
  rw [this]
  exact hfail

end Mpeg.Pipe
