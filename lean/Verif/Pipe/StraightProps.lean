/-
C113: `pes.NewPayloadReader` on top of `ts.NewPayloadReader`, without the division into payload units.
-/
import Verif.Pipe.ProgramProps
set_option linter.all false
namespace Mpeg.Pipe
open PES.Spec TS.Spec

/-- what the Reads of `ts.NewPayloadReader(br, ts.IsPID(k))` return -/
def prReads (fuel k : Nat) (bits : List Bool) (ns : List Nat) : Res (List (List UInt8 × Option Err)) :=
  (TS.PR.reads { whre := TS.isPID k } fuel ns (TS.PR.new (BR.ofBits bits))).1

/-- The packets `ps` (of any PIDs) carry the bytes `c` on PID `k`, cut anywhere, whatever their unit start indicators. -/
structure Bears (k : Nat) (ps : List Pkt) (c : List UInt8) : Prop where
  legal : ∀ p ∈ ps, p.WF ∧ p.body.Plain
  payload : ∀ p ∈ ps, p.hdr.pid = k → p.body.hasPayload = true
  bytes : TS.pidBytes k ps = c

/-- The bit reader on top of the payload reader is the one over the payloads of the PID. -/
theorem pr_source {k fuel : Nat} {ps : List Pkt} {c : List UInt8} (h : Bears k ps c) (hf : ps.length < fuel) :
    IsSource (prReads fuel k (ps.map encPkt).flatten) ⟨bitsOfBytes c, 0, .eof, []⟩ := by
  refine ⟨_, .eof, [], rfl, fun ns _ => ?_⟩
  have h1 := TS.run_enc (stop := .eof) (later := []) ps TS.Packet.new 0 h.legal rfl
  have h2 := TS.next_at_end (s := ⟨TS.lastOf TS.Packet.new ps, ⟨[], 0 + 188 * 8 * ps.length, .eof, []⟩⟩) rfl rfl
    (by simp only; omega)
  have hp := TS.observed_payloads (TS.isPID k) (fun h => h.pid == k)
    (by intro p h b; have := TS.result_hdr p h b; simp [TS.isPID, this.2.2.2.1]) ps TS.Packet.new
    (fun p hp hv => h.payload p hp (by simpa using hv))
  have hl : ∀ (ps : List Pkt) p0, (TS.observed p0 ps).length = ps.length := by
    intro ps
    induction ps with
    | nil => intro; rfl
    | cons p ps ih => intro p0; simp [TS.observed, ih]
  have hc : TS.Spec.payloads (TS.isPID k) (TS.observed TS.Packet.new ps) = c := by
    rw [hp]; exact h.bytes
  rw [← deliver_segs]
  unfold prReads
  cases ns with
  | nil => rfl
  | cons n ns =>
    rw [TS.reads_new _ rfl]
    obtain ⟨r', h3, _⟩ := TS.reads_deliver { whre := TS.isPID k } h2 (n :: ns)
      { TS.PR.new (BR.ofBits (ps.map encPkt).flatten) with started := true } (TS.observed TS.Packet.new ps)
      ⟨rfl, rfl, h1, fun _ _ => rfl⟩ fuel (by rw [hl]; exact hf)
    have := congrArg Prod.fst h3
    simpa [TS.content, TS.PR.new, hc] using this

/-- Reading one unit from a source that ends with it. -/
theorem run_unit (u : PesUnit) (h : u.WF) (p : PES.Packet) (pos : Nat) :
    ∃ ps, PES.Parts ⟨p, ⟨u.enc, pos, .eof, []⟩⟩ [ps] .eof ∧ payloads ps = u.payload ∧
      ps.length = u.closed.length + u.last.toList.length := by
  obtain ⟨hw1, hw2⟩ := h
  cases hl : u.last with
  | none =>
    obtain ⟨ps, p', pos', h1, h2, h3⟩ := run_closed (stop := .eof) (later := []) u.closed p pos [] hw1
    refine ⟨ps, ?_, by simp [PesUnit.payload, hl, h2], by simp [h3]⟩
    have : u.enc = u.closed.flatMap (fun p => encPacket p.id p.hdr p.data) ++ [] := by simp [PesUnit.enc, hl]
    rw [this]
    exact .last h1 (PES.next_end p' pos' .eof) (by decide)
  | some q =>
    obtain ⟨ps, p', pos', h1, h2, h3⟩ := run_closed (stop := .eof) (later := []) u.closed p pos
      (encUnbounded q.id q.hdr q.data) hw1
    obtain ⟨g1, g2, g3, g4⟩ := hw2 q hl
    have hn := PES.next_unbounded (pos := pos') (stop := .eof) (later := []) p' q.id q.hdr q.data g1
      (PES.hasHeader_of g2) g3 g4 (.inl rfl)
    have h4 : PES.Run ⟨p, ⟨u.closed.flatMap (fun p => encPacket p.id p.hdr p.data) ++ encUnbounded q.id q.hdr q.data,
        pos, .eof, []⟩⟩ (ps ++ [⟨q.id, 0, some (PES.viewHdr q.hdr), q.data⟩])
        ⟨⟨q.id, 0, some (PES.viewHdr q.hdr), q.data⟩, ⟨[], pos' + (encUnbounded q.id q.hdr q.data).length, .eof, []⟩⟩ := by
      have hr : PES.Run ⟨p', ⟨encUnbounded q.id q.hdr q.data, pos', .eof, []⟩⟩ [⟨q.id, 0, some (PES.viewHdr q.hdr), q.data⟩]
          ⟨⟨q.id, 0, some (PES.viewHdr q.hdr), q.data⟩, ⟨[], pos' + (encUnbounded q.id q.hdr q.data).length, .eof, []⟩⟩ :=
        .cons hn (.nil _)
      exact PES.Run.append h1 hr
    refine ⟨ps ++ [⟨q.id, 0, some (PES.viewHdr q.hdr), q.data⟩], ?_, ?_, by simp [h3]⟩
    · have : u.enc = u.closed.flatMap (fun p => encPacket p.id p.hdr p.data) ++ encUnbounded q.id q.hdr q.data := by
        simp [PesUnit.enc, hl]
      rw [this]
      exact .last h4 (PES.next_end _ _ .eof) (by decide)
    · have : PES.Spec.payloads (ps ++ [⟨q.id, 0, some (PES.viewHdr q.hdr), q.data⟩]) = PES.Spec.payloads ps ++ q.data := by
        simp [PES.Spec.payloads]
      rw [this, h2]
      simp [PesUnit.payload, hl]

theorem pes_unit (u : PesUnit) (h : u.WF) {fuel' : Nat} (hf' : u.closed.length + u.last.toList.length < fuel') (ns : List Nat) :
    pesReads fuel' ⟨u.enc, 0, .eof, []⟩ ns = .ok (deliver u.payload .eof ns) := by
  obtain ⟨ps, h1, h2, h3⟩ := run_unit u h {} 0
  obtain ⟨r', h4⟩ := PES.C26_every_source ⟨u.enc, 0, .eof, []⟩ ps [] .eof h1 ns fuel' (by
    simp only [PES.total, List.map_nil, List.sum_nil]; omega)
  unfold pesReads
  rw [h4, List.map_nil, PES.deliverParts_nil, h2]

/-- **C113 (partial)**: for every transport stream that carries, on PID `k` and cut into packets in any way, PES packets of
known length, possibly with one of unknown length at the end, the Reads return the payloads of all PES packets, including
the last, without a break, and `io.EOF` exactly at their end.  The full claim is false: `C113_swallow`, `C113_false`. -/
theorem C113_partial {k fuel fuel' : Nat} {ps : List Pkt} {c : List UInt8} {u : PesUnit} (h : Bears k ps c)
    (hu : u.WF) (hc : bitsOfBytes c = u.enc) (hf : ps.length < fuel)
    (hf' : u.closed.length + u.last.toList.length < fuel') :
    (∃ br, IsSource (prReads fuel k (ps.map encPkt).flatten) br) ∧
    ∀ br, IsSource (prReads fuel k (ps.map encPkt).flatten) br →
      ∀ ns, pesReads fuel' br ns = .ok (deliver u.payload .eof ns) := by
  refine ⟨⟨_, pr_source h hf⟩, fun br hbr ns => ?_⟩
  obtain rfl := hbr.unique (pr_source h hf)
  rw [hc]
  exact pes_unit u hu hf' ns

/-- **C113 is false for PES packets of unknown length**: everything behind the header of the first such packet is taken for
its payload, so the headers of all later PES packets end up in the elementary stream, whatever these packets are. -/
theorem C113_swallow {k fuel fuel' : Nat} {ps : List Pkt} {c later : List UInt8} {u : PesUnit} {q : PesPkt} (h : Bears k ps c)
    (hu : u.WF) (hq : u.last = some q) (hc : bitsOfBytes c = u.enc ++ bitsOfBytes later) (hf : ps.length < fuel)
    (hf' : u.closed.length + 1 < fuel') :
    ∀ br, IsSource (prReads fuel k (ps.map encPkt).flatten) br →
      ∀ ns, pesReads fuel' br ns = .ok (deliver (u.payload ++ later) .eof ns) := by
  intro br hbr ns
  have hw : PesUnit.WF ⟨u.closed, some { q with data := q.data ++ later }⟩ := by
    refine ⟨hu.1, fun p hp => ?_⟩
    cases hp
    exact hu.2 q hq
  have he : bitsOfBytes c = PesUnit.enc ⟨u.closed, some { q with data := q.data ++ later }⟩ := by
    rw [hc]
    simp [PesUnit.enc, hq, encUnbounded, bitsOfBytes_append]
  have := (C113_partial h hw he hf hf').2 br hbr ns
  rw [this]
  simp [PesUnit.payload, hq]

/-- **C113**, pictures (partial, as C75): the video decoder on top of the two readers returns exactly the pictures of the
reference decoder in display order, and then the end of the stream. -/
theorem C113_pictures_partial {k fuel fuel' fuelV kV : Nat} {ps : List Pkt} {c : List UInt8} {u : PesUnit} (h : Bears k ps c)
    (hu : u.WF) (hc : bitsOfBytes c = u.enc) (hf : ps.length < fuel)
    (hf' : u.closed.length + u.last.toList.length < fuel')
    {W H lead : Nat} {vs : List Video.Spec.CGroup} {bits rest : List Bool} {imgs : List Video.Spec.Image}
    (hs : bitsOfBytes u.payload = List.replicate (8 * lead) false ++ (bits ++ (bitsOf 32 0x1B7 ++ rest)))
    (hv : Video.Spec.GroupsCode W H 0 none none (8 * lead) vs bits imgs) (hvs : vs ≠ []) (hk : 2 ≤ kV)
    (hfv : bits.length < fuelV) :
    (∃ br, IsSource (prReads fuel k (ps.map encPkt).flatten) br ∧ ∃ br', IsSource (pesReads fuel' br) br') ∧
    ∀ br br', IsSource (prReads fuel k (ps.map encPkt).flatten) br → IsSource (pesReads fuel' br) br' →
      ∃ frames t, Video.nexts fuelV kV imgs.length (Video.VS.new br') = (.ok frames, t) ∧ frames.length = imgs.length ∧
        (∀ i (h1 : i < frames.length) (h2 : i < imgs.length), Video.Spec.Shows W H frames[i] imgs[i]) ∧
        (Video.VS.next fuelV kV t).1 = .err .eos := by
  have key : ∀ br, IsSource (prReads fuel k (ps.map encPkt).flatten) br →
      IsSource (pesReads fuel' br) ⟨bitsOfBytes u.payload, 0, .eof, []⟩ := by
    intro br hbr
    refine ⟨_, .eof, [], rfl, fun ns _ => ?_⟩
    rw [(C113_partial h hu hc hf hf').2 br hbr, deliver_segs]
  refine ⟨⟨_, pr_source h hf, _, key _ (pr_source h hf)⟩, fun br br' h1 h2 => ?_⟩
  obtain rfl := h2.unique (key br h1)
  obtain ⟨frames, t, g1, g2, g3, g4, _⟩ := Video.C75_partial (stop := .eof) (later := []) (rest := rest) hk hvs hv hfv
  refine ⟨frames, t, ?_, g2, g3, g4⟩
  rw [hs]
  exact g1

/-- All bytes are carried by some transport stream. -/
theorem exists_bears (k : Nat) (hk : k < 2 ^ 13) (c : List UInt8) : ∃ ps, Bears k ps c :=
  have h := muxed hk c.length true c (by omega)
  ⟨_, h.legal, fun p hp _ => h.payload p hp, h.bytes⟩

/-- the hypotheses can be met for every unit -/
theorem exists_bears_unit (k : Nat) (hk : k < 2 ^ 13) (u : PesUnit) (hu : u.WF) : ∃ ps c, Bears k ps c ∧ bitsOfBytes c = u.enc := by
  obtain ⟨c, hc⟩ := bytes_of (enc_aligned u hu)
  obtain ⟨ps, h⟩ := exists_bears k hk c
  exact ⟨ps, c, h, hc⟩

/-- the hypotheses can be met: the packets `[1, 2]` and `[3]` of known length and `[4]` of unknown length -/
example : ∃ ps c br, Bears 0x21 ps c ∧ IsSource (prReads (ps.length + 1) 0x21 (ps.map encPkt).flatten) br ∧
    pesReads 9 br [3, 3] = .ok [([1, 2, 3], none), ([4], some .eof)] := by
  have hw : PesUnit.WF ⟨[pkt [1, 2], pkt [3]], some (pkt [4])⟩ := by
    refine ⟨fun p hp => ?_, (openUnit_wf [4]).2⟩
    simp only [List.mem_cons, List.not_mem_nil, or_false] at hp
    rcases hp with rfl | rfl
    · exact (closedUnit_wf [1, 2] (by decide)).1 _ (List.mem_cons_self ..)
    · exact (closedUnit_wf [3] (by decide)).1 _ (List.mem_cons_self ..)
  obtain ⟨ps, c, h, hc⟩ := exists_bears_unit 0x21 (by decide) _ hw
  obtain ⟨⟨br, hbr⟩, h2⟩ := C113_partial (fuel' := 9) h hw hc (Nat.lt_succ_self _) (by decide)
  exact ⟨ps, c, br, h, hbr, by rw [h2 br hbr]; rfl⟩

/-- the hypotheses can be met: a stream of three pictures (C75), cut anywhere into two packets, the first of known length -/
example (n : Nat) (hn : n < 65533) : ∃ (ps : List Pkt) (c : List UInt8) (u : PesUnit) (vs : List Video.Spec.CGroup)
    (bits rest : List Bool) (imgs : List Video.Spec.Image), Bears 0x21 ps c ∧ u.WF ∧ bitsOfBytes c = u.enc ∧
    bitsOfBytes u.payload = List.replicate (8 * 1) false ++ (bits ++ (bitsOf 32 0x1B7 ++ rest)) ∧
    Video.Spec.GroupsCode 1 1 0 none none (8 * 1) vs bits imgs ∧ vs ≠ [] ∧ imgs.length = 3 := by
  obtain ⟨bits, imgs, h, h3⟩ := Video.ExStream.stream
  let pad := 8 - (bits.length % 8)
  obtain ⟨c, hc⟩ := bytes_of (l := List.replicate (8 * 1) false ++ (bits ++ (bitsOf 32 0x1B7 ++ List.replicate pad false))) (by
    simp only [List.length_append, List.length_replicate, length_bitsOf, pad]; omega)
  have hw : PesUnit.WF ⟨[pkt (c.take n)], some (pkt (c.drop n))⟩ :=
    ⟨(closedUnit_wf (c.take n) (by rw [List.length_take]; omega)).1, (openUnit_wf (c.drop n)).2⟩
  obtain ⟨ps, b, hb, hbc⟩ := exists_bears_unit 0x21 (by decide) _ hw
  exact ⟨ps, b, _, _, bits, List.replicate pad false, imgs, hb, hw, hbc, by simp [PesUnit.payload, pkt, hc], h,
    List.cons_ne_nil _ _, h3⟩

/-- **C113** is false: of two packets of unknown length with the payloads `[1]` and `[2]`, the header of the second is
returned between the two payloads. -/
theorem C113_false : ∃ ps c br, Bears 0x21 ps c ∧ bitsOfBytes c = (openUnit [1]).enc ++ (openUnit [2]).enc ∧
    IsSource (prReads (ps.length + 1) 0x21 (ps.map encPkt).flatten) br ∧
    pesReads 9 br [100] = .ok [([1, 0, 0, 1, 0xE0, 0, 0, 0x80, 0, 0, 2], some .eof)] := by
  obtain ⟨later, hlat, hl⟩ : ∃ l : List UInt8, l = [0, 0, 1, 0xE0, 0, 0, 0x80, 0, 0, 2] ∧ bitsOfBytes l = (openUnit [2]).enc :=
    ⟨_, rfl, by decide +kernel⟩
  obtain ⟨c1, hc1⟩ := bytes_of (enc_aligned _ (openUnit_wf [1]))
  obtain ⟨ps, h⟩ := exists_bears 0x21 (by decide) (c1 ++ later)
  have hc : bitsOfBytes (c1 ++ later) = (openUnit [1]).enc ++ bitsOfBytes later := by rw [bitsOfBytes_append, hc1]
  have hs := pr_source h (Nat.lt_succ_self _)
  refine ⟨ps, _, _, h, by rw [hc, hl], hs, ?_⟩
  rw [C113_swallow (fuel' := 9) h (openUnit_wf [1]) rfl hc (Nat.lt_succ_self _) (by decide) _ hs, hlat]
  rfl

end Mpeg.Pipe
