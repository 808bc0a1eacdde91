/-
C89: bytes between the packets that belong to no packet.
-/
import Verif.TS.NoiseLemmas
namespace Mpeg.TS
open Spec

/-- **C89**, `Next`: a stream with noise yields the same packet values as the stream without, and then the same end. -/
theorem C89_packets {l : List (List UInt8 × Pkt)} {t : List UInt8} (hw : NoisyWF l t) :
    ∃ ps s s', ps.length = l.length ∧ Ends ⟨Packet.new, BR.ofBits (noisy l t)⟩ ps .eof s ∧
      Ends ⟨Packet.new, BR.ofBits (clean l)⟩ ps .eof s' := by
  have key : ∀ (l : List (List UInt8 × Pkt)) (t : List UInt8) (p0 : Packet) (p q : Nat), NoisyWF l t → p % 8 = 0 → q % 8 = 0 →
      ∃ ps s s', ps.length = l.length ∧ Ends ⟨p0, ⟨noisy l t, p, .eof, []⟩⟩ ps .eof s ∧
        Ends ⟨p0, ⟨clean l, q, .eof, []⟩⟩ ps .eof s' := by
    intro l
    induction l with
    | nil =>
      intro t p0 p q hw hp hq
      exact ⟨[], _, _, rfl, ⟨_, .nil _, next_tail p0 t hw.2.1 hw.2.2 p hp⟩, ⟨_, .nil _, next_at_end rfl rfl hq⟩⟩
    | cons x l ih =>
      intro t p0 p q hw hp hq
      obtain ⟨g, k⟩ := x
      obtain ⟨⟨hg, hn⟩, hk, hpl⟩ := hw.1 (g, k) (by simp)
      have e1 := next_noise p0 k hk hpl g hg hn (noisy l t) p hp
      have e2 := next_enc (r := clean l) (stop := .eof) (later := []) (pos := q) p0 k hk hpl hq
      obtain ⟨ps, s, s', i0, ⟨a, i1, i2⟩, ⟨b, i3, i4⟩⟩ := ih t (result p0 k.hdr k.body) (p + 8 * g.length + 188 * 8) (q + 188 * 8)
        ⟨fun y hy => hw.1 y (by simp [hy]), hw.2⟩ (by omega) (by omega)
      refine ⟨result p0 k.hdr k.body :: ps, s, s', by simp [i0], ⟨a, Run.cons e1 i1, i2⟩, ⟨b, ?_, i4⟩⟩
      rw [show clean ((g, k) :: l) = encPkt k ++ clean l by simp [clean]]
      exact Run.cons e2 i3
  exact key l t Packet.new 0 0 hw rfl rfl

/-- **C89**, payload reader: up to 187 bytes that are not the sync byte in front of any packet and at the end of the stream make
no difference to any Read, whatever the testers, the sizes of the buffers and the bounds on the loops. -/
theorem C89_payload_reader {l : List (List UInt8 × Pkt)} {t : List UInt8} (hw : NoisyWF l t) (c : PRCfg) (fuel : Nat)
    (ns : List Nat) : (PR.reads c fuel ns (PR.new (BR.ofBits (noisy l t)))).1 =
      (PR.reads c fuel ns (PR.new (BR.ofBits (clean l)))).1 :=
  (inStep_prReads c fuel ns (PR.new (BR.ofBits (noisy l t))) (PR.new (BR.ofBits (clean l))) ⟨rfl, rfl, rfl, Sim.init hw⟩).1

/-- **C89**, payload unit reader. -/
theorem C89_unit_reader {l : List (List UInt8 × Pkt)} {t : List UInt8} (hw : NoisyWF l t) (w : Tester) (fuel : Nat)
    (ns : List Nat) : (PU.reads w fuel ns (PU.new (BR.ofBits (noisy l t)))).1 =
      (PU.reads w fuel ns (PU.new (BR.ofBits (clean l)))).1 :=
  (inStep_reads w fuel ns (PU.new (BR.ofBits (noisy l t))) (PU.new (BR.ofBits (clean l))) ⟨rfl, rfl, rfl, Sim.init hw⟩).1

/-- **C89**, demuxer: what can be observed on the channels, the packet the consumers share and the error are the same; every
interleaving of the one is one of the other. -/
theorem C89_demuxer {l : List (List UInt8 × Pkt)} {t : List UInt8} (hw : NoisyWF l t) (d : Demuxer) (log : List Ev)
    (pc : DPC) (e : Option Err) (p : Packet) :
    (∃ s, Reach d (BR.ofBits (noisy l t)) s ∧ s.log = log ∧ s.pc = pc ∧ s.lastErr = e ∧ s.st.pkt = p) ↔
      ∃ s, Reach d (BR.ofBits (clean l)) s ∧ s.log = log ∧ s.pc = pc ∧ s.lastErr = e ∧ s.st.pkt = p := by
  constructor
  · rintro ⟨s, h1, h2, h3, h4, h5⟩
    obtain ⟨s', g1, g2, g3, g4, g5, g6, g7, g8⟩ := reach_left d hw h1
    exact ⟨s', g1, by rw [← g7, h2], by rw [← g3, h3], by rw [← g4, h4], by rw [← g8.pkt, h5]⟩
  · rintro ⟨s, h1, h2, h3, h4, h5⟩
    obtain ⟨s', g1, g2, g3, g4, g5, g6, g7, g8⟩ := reach_right d hw h1
    exact ⟨s', g1, by rw [g7, h2], by rw [g3, h3], by rw [g4, h4], by rw [g8.pkt, h5]⟩

/-- The limit is exact: 188 bytes in front of a packet are reported as an error. -/
theorem C89_limit (p0 : Packet) (p : Pkt) (g : List UInt8) (hg : ∀ b ∈ g, b ≠ 0x47) (hn : g.length = 188) :
    (Packet.next ⟨p0, BR.ofBits (bitsOfBytes g ++ encPkt p)⟩).1 = .err .noSyncByte := by
  have := C03_no_sync (pos := 0) (stop := .eof) (later := []) (r := encPkt p) p0 [] (by decide) g hg hn
  exact congrArg Prod.fst this

/-- Without the condition on the sync byte the claim is false: the byte 0x47 in front of a packet is taken for the beginning of
one, and the payload of the packet is lost. -/
theorem C89_sync_false : (PR.reads { whre := isPID 0x21 } 9 [184] (PR.new (BR.ofBytes oneUnit))).1 =
      .ok [(List.replicate 184 0x11, none)] ∧
    (PR.reads { whre := isPID 0x21 } 9 [184] (PR.new (BR.ofBytes (0x47 :: oneUnit)))).1 = .ok [([], some .unexpectedEOF)] := by
  constructor <;> decide +kernel

/-- the hypotheses can be met, with two noisy packets of different kinds and noise at the end -/
example : NoisyWF [([0, 1, 2], pkt0), ([0xff, 0x46], pkt1)] [0x46] := by
  refine ⟨fun x hx => ?_, fun b hb => ?_, by decide⟩
  · simp only [List.mem_cons, List.not_mem_nil, or_false] at hx
    rcases hx with rfl | rfl
    · exact ⟨⟨by decide, by decide⟩, pkt0_wf, trivial⟩
    · exact ⟨⟨by decide, by decide⟩, pkt1_wf⟩
  · simp only [List.mem_cons, List.not_mem_nil, or_false] at hb
    rw [hb]; decide

/-- and the noise is really there -/
example (l : List (List UInt8 × Pkt)) (t : List UInt8) :
    (noisy l t).length = (clean l).length + 8 * ((l.map fun x => x.1.length).sum + t.length) := by
  induction l with
  | nil => simp [noisy, clean]
  | cons x l ih =>
    obtain ⟨g, k⟩ := x
    simp only [noisy, clean, List.length_append, List.map_cons, List.flatten_cons, List.sum_cons, length_bitsOfBytes] at ih ⊢
    omega

end Mpeg.TS
