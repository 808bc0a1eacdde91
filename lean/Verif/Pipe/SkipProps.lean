/-
C117: joining a transport stream in the middle with `SkipUntil`, and the PES reader on top.
-/
import Verif.Pipe.StraightProps
import Verif.Pipe.TuneProps
import Verif.TS.IsolationProps
set_option linter.all false
namespace Mpeg.TS
open Spec

theorem skip_deliver (w t : Tester) {br : BR} {pre ps : List Packet} {s1 s2 s' s'' : St} {e : Err}
    (h : Run ⟨Packet.new, br⟩ pre s1) (hpre : ∀ p ∈ pre, t p = false)
    (hq : Packet.next s1 = (.ok (), s2)) (hacc : t s2.pkt = true)
    (hrest : Run s2 ps s') (he : Packet.next s' = (.err e, s'')) (n : Nat) (ns : List Nat)
    {fuel : Nat} (hf : pre.length + ps.length + 1 ≤ fuel) :
    (PR.reads { whre := w, skipUntil := some t } fuel (n :: ns) (PR.new br)).1 =
      .ok (deliver (s2.pkt.payload ++ payloads w ps) e (n :: ns)) := by
  obtain ⟨f, hfe⟩ : ∃ f, fuel = f + 1 + pre.length := ⟨fuel - 1 - pre.length, by omega⟩
  have hre := realign_ok t h hpre hq hacc f { PR.new br with started := true } rfl
  rw [← hfe] at hre
  have hread : PR.read { whre := w, skipUntil := some t } fuel n (PR.new br) =
      PR.read { whre := w, skipUntil := some t } fuel n
        { PR.new br with started := true, st := s2, remainder := s2.pkt.payload } := by
    have e1 : PR.read { whre := w, skipUntil := some t } fuel n (PR.new br) =
        (do PR.realign t fuel; PR.drain { whre := w, skipUntil := some t } fuel n)
          { PR.new br with started := true } := by simp [PR.read, PR.new]
    rw [e1, Go.bind_ok hre, read_drain _ rfl rfl]
    simp [PR.new]
  have hreads : PR.reads { whre := w, skipUntil := some t } fuel (n :: ns) (PR.new br) =
      PR.reads { whre := w, skipUntil := some t } fuel (n :: ns)
        { PR.new br with started := true, st := s2, remainder := s2.pkt.payload } := by
    rw [PR.reads, Go.bind_apply, Go.bind_apply, hread]
  obtain ⟨r', h3, _⟩ := reads_deliver { whre := w, skipUntil := some t } he (n :: ns)
    { PR.new br with started := true, st := s2, remainder := s2.pkt.payload } ps
    ⟨rfl, rfl, hrest, fun _ _ => rfl⟩ fuel (by omega)
  rw [hreads, h3]
  rfl

end Mpeg.TS

namespace Mpeg.Pipe
open PES.Spec TS.Spec

/-- what the Reads of `ts.NewPayloadReader(br, ts.IsPID(k))` return after `SkipUntil(t)` -/
def skipReads (fuel k : Nat) (t : TS.Tester) (bits : List Bool) (ns : List Nat) : Res (List (List UInt8 × Option Err)) :=
  (TS.PR.reads { whre := TS.isPID k, skipUntil := some t } fuel ns (TS.PR.new (BR.ofBits bits))).1

/-- The Reads after `SkipUntil(t)` for a tester that looks at the header: the payload of the first accepted packet, whatever
its PID, and then the payloads of PID `k`. -/
theorem skip_reads {k fuel : Nat} {t : TS.Tester} {v : TS.Spec.Hdr → Bool} (ht : ∀ p h b, t (TS.result p h b) = v h)
    {pre ps : List Pkt} {p : Pkt} (hw : ∀ q ∈ pre ++ p :: ps, q.WF ∧ q.body.Plain) (hpre : ∀ q ∈ pre, v q.hdr = false)
    (hp : v p.hdr = true) (hpb : p.body.hasPayload = true) (hb : ∀ q ∈ ps, q.hdr.pid = k → q.body.hasPayload = true)
    (hf : pre.length + ps.length + 1 ≤ fuel) (ns : List Nat) :
    skipReads fuel k t ((pre ++ p :: ps).map encPkt).flatten ns = .ok (deliver (p.body.data ++ TS.pidBytes k ps) .eof ns) := by
  cases ns with
  | nil => rfl
  | cons n ns =>
    have hrun := TS.run_enc (stop := .eof) (later := []) (pre ++ p :: ps) TS.Packet.new 0 hw rfl
    rw [TS.observed_append] at hrun
    obtain ⟨s1, h1, h2⟩ := TS.Run.split hrun
    rw [TS.observed] at h2
    obtain ⟨s2, hq, h3, h4⟩ := TS.Run.cons_inv h2
    have he := TS.next_at_end (s := ⟨TS.lastOf TS.Packet.new (pre ++ p :: ps),
      ⟨[], 0 + 188 * 8 * (pre ++ p :: ps).length, .eof, []⟩⟩) rfl rfl (by simp only; omega)
    have hobs : ∀ q ∈ TS.observed TS.Packet.new pre, t q = false := by
      clear h1 h2 hrun hq h3 h4 he hw hf
      generalize TS.Packet.new = p0
      revert p0
      induction pre with
      | nil => intro p0 q hq; cases hq
      | cons a pre ih =>
        intro p0 q hq
        rcases List.mem_cons.mp hq with rfl | hq
        · rw [ht]; exact hpre a (List.mem_cons_self ..)
        · exact ih (fun x hx => hpre x (List.mem_cons_of_mem _ hx)) _ q hq
    have hacc : t s2.pkt = true := by rw [h3, ht]; exact hp
    have hlen : (TS.observed TS.Packet.new pre).length + (TS.observed (TS.result (TS.lastOf TS.Packet.new pre) p.hdr p.body) ps).length + 1
        ≤ fuel := by rw [TS.observed_length, TS.observed_length]; exact hf
    have hd := TS.skip_deliver (TS.isPID k) t h1 hobs hq hacc h4 he n ns hlen
    have hpay : s2.pkt.payload = p.body.data := by
      rw [h3, TS.result_payload, if_pos hpb]
    have hrest := TS.observed_payloads (TS.isPID k) (fun h => h.pid == k)
      (by intro p h b; have := TS.result_hdr p h b; simp [TS.isPID, this.2.2.2.1]) ps
      (TS.result (TS.lastOf TS.Packet.new pre) p.hdr p.body) (fun q hq hv => hb q hq (by simpa using hv))
    rw [hpay, hrest] at hd
    exact hd

/-- The tester of a consumer that joins PID `k`: `ts.IsPID(k).And(ts.IsPayloadUnitStart)` -/
def joinTester (k : Nat) : TS.Tester := (TS.isPID k).and TS.isPayloadUnitStart

/-- The stream is joined somewhere: `pre` are the packets up to the first unit start on PID `k`, and what is left of the
PID from there on are the bytes `c`. -/
structure Joined (k : Nat) (pre : List Pkt) (p : Pkt) (ps : List Pkt) (c : List UInt8) : Prop where
  legal : ∀ q ∈ pre ++ p :: ps, q.WF ∧ q.body.Plain
  before : ∀ q ∈ pre, TS.starts k q = false
  first : TS.starts k p = true
  payload : ∀ q ∈ p :: ps, q.hdr.pid = k → q.body.hasPayload = true
  bytes : TS.pidBytes k (p :: ps) = c

/-- **C117** for the transport stream layer: the Reads return the payloads of the PID from the first unit start on. -/
theorem C117_join {k fuel : Nat} {pre ps : List Pkt} {p : Pkt} {c : List UInt8} (h : Joined k pre p ps c)
    (hf : (pre ++ p :: ps).length ≤ fuel) (ns : List Nat) :
    skipReads fuel k (joinTester k) ((pre ++ p :: ps).map encPkt).flatten ns = .ok (deliver c .eof ns) := by
  have hpid : p.hdr.pid = k := by
    have := h.first
    unfold TS.starts at this
    simp only [Bool.and_eq_true, beq_iff_eq] at this
    exact this.1
  have hj : ∀ q hd b, joinTester k (TS.result q hd b) = (hd.pid == k && hd.pusi) := by
    intro q hd b
    have := TS.result_hdr q hd b
    simp [joinTester, TS.Tester.and, TS.isPID, TS.isPayloadUnitStart, this.2.2.2.1, this.2.1]
  rw [skip_reads (v := fun hd => hd.pid == k && hd.pusi) hj h.legal h.before h.first
    (h.payload p (List.mem_cons_self ..) hpid) (fun q hq => h.payload q (List.mem_cons_of_mem _ hq))
    (by simp only [List.length_append, List.length_cons] at hf; omega) ns, ← h.bytes, TS.pidBytes_cons hpid]

theorem join_source {k fuel : Nat} {pre ps : List Pkt} {p : Pkt} {c : List UInt8} (h : Joined k pre p ps c)
    (hf : (pre ++ p :: ps).length ≤ fuel) :
    IsSource (skipReads fuel k (joinTester k) ((pre ++ p :: ps).map encPkt).flatten) ⟨bitsOfBytes c, 0, .eof, []⟩ := by
  refine ⟨_, .eof, [], rfl, fun ns _ => ?_⟩
  rw [C117_join h hf, deliver_segs]

/-- **C117 (partial)**: the PES reader on top returns the payloads of all PES packets from the first unit start on, without
a break.  Partial as C113: of the PES packets only the last may have an unknown length. -/
theorem C117_partial {k fuel fuel' : Nat} {pre ps : List Pkt} {p : Pkt} {c : List UInt8} {u : PesUnit}
    (h : Joined k pre p ps c) (hu : u.WF) (hc : bitsOfBytes c = u.enc) (hf : (pre ++ p :: ps).length ≤ fuel)
    (hf' : u.closed.length + u.last.toList.length < fuel') :
    (∃ br, IsSource (skipReads fuel k (joinTester k) ((pre ++ p :: ps).map encPkt).flatten) br) ∧
    ∀ br, IsSource (skipReads fuel k (joinTester k) ((pre ++ p :: ps).map encPkt).flatten) br →
      ∀ ns, pesReads fuel' br ns = .ok (deliver u.payload .eof ns) := by
  refine ⟨⟨_, join_source h hf⟩, fun br hbr ns => ?_⟩
  obtain rfl := hbr.unique (join_source h hf)
  rw [hc]
  exact pes_unit u hu hf' ns

/-- **C117**, pictures (partial, as C113 and C87): the elementary stream from the first unit start on begins anywhere (`skip`).
After `AlignTo` with the sequence header code the calls of `Next` return exactly the pictures from the next entry point on,
and then the end of the stream. -/
theorem C117_pictures_partial {k fuel fuel' fuelV kV : Nat} {pre ps : List Pkt} {p : Pkt} {c : List UInt8} {u : PesUnit}
    (h : Joined k pre p ps c) (hu : u.WF) (hc : bitsOfBytes c = u.enc) (hf : (pre ++ p :: ps).length ≤ fuel)
    (hf' : u.closed.length + u.last.toList.length < fuel')
    {W H base : Nat} {σ : Option Video.Spec.Ctx} {prev : Option Video.Spec.Image} {vs : List Video.Spec.CGroup}
    {skip bits rest : List Bool} {imgs : List Video.Spec.Image}
    (hs : bitsOfBytes u.payload = skip ++ (bits ++ (bitsOf 32 0x1B7 ++ rest))) (h8 : skip.length % 8 = 0)
    (hno : ∀ j, 8 * j < skip.length → ((skip ++ (bits ++ (bitsOf 32 0x1B7 ++ rest))).drop (8 * j)).take 32 ≠ bitsOf 32 0x1B3)
    (hent : Video.Spec.Entry vs) (hv : Video.Spec.GroupsCode W H base σ prev skip.length vs bits imgs) (hk : 2 ≤ kV)
    (hfv : bits.length < fuelV) :
    (∃ br, IsSource (skipReads fuel k (joinTester k) ((pre ++ p :: ps).map encPkt).flatten) br ∧
      ∃ br', IsSource (pesReads fuel' br) br') ∧
    ∀ br br', IsSource (skipReads fuel k (joinTester k) ((pre ++ p :: ps).map encPkt).flatten) br →
      IsSource (pesReads fuel' br) br' →
      ∃ s, Video.VS.lift (Video.alignTo 0x1B3) (Video.VS.new br') = (.ok (), s) ∧
      ∃ frames t, Video.nexts fuelV kV imgs.length s = (.ok frames, t) ∧ frames.length = imgs.length ∧
        (∀ i (h1 : i < frames.length) (h2 : i < imgs.length), Video.Spec.Shows W H frames[i] imgs[i]) ∧
        (Video.VS.next fuelV kV t).1 = .err .eos := by
  have key : ∀ br, IsSource (skipReads fuel k (joinTester k) ((pre ++ p :: ps).map encPkt).flatten) br →
      IsSource (pesReads fuel' br) ⟨bitsOfBytes u.payload, 0, .eof, []⟩ := by
    intro br hbr
    refine ⟨_, .eof, [], rfl, fun ns _ => ?_⟩
    rw [(C117_partial h hu hc hf hf').2 br hbr, deliver_segs]
  refine ⟨⟨_, join_source h hf, _, key _ (join_source h hf)⟩, fun br br' h1 h2 => ?_⟩
  obtain rfl := h2.unique (key br h1)
  rw [hs]
  exact tune hk hent h8 hno hv hfv

/-- **C117 is false** for `SkipUntil(ts.IsPayloadUnitStart)`: if the first unit start of the stream is on another PID, its
payload is returned in front of the payloads of PID `k`. -/
theorem C117_foreign {k fuel : Nat} {pre ps : List Pkt} {p : Pkt} (hw : ∀ q ∈ pre ++ p :: ps, q.WF ∧ q.body.Plain)
    (hpre : ∀ q ∈ pre, q.hdr.pusi = false) (hp : p.hdr.pusi = true) (hpb : p.body.hasPayload = true) (hpid : p.hdr.pid ≠ k)
    (hb : ∀ q ∈ ps, q.hdr.pid = k → q.body.hasPayload = true) (hf : (pre ++ p :: ps).length ≤ fuel) (ns : List Nat) :
    skipReads fuel k TS.isPayloadUnitStart ((pre ++ p :: ps).map encPkt).flatten ns =
      .ok (deliver (p.body.data ++ TS.pidBytes k (p :: ps)) .eof ns) := by
  have hj : ∀ q hd b, TS.isPayloadUnitStart (TS.result q hd b) = hd.pusi := by
    intro q hd b
    have := TS.result_hdr q hd b
    simp [TS.isPayloadUnitStart, this.2.1]
  rw [skip_reads (v := fun hd => hd.pusi) hj hw hpre hp hpb hb
    (by simp only [List.length_append, List.length_cons] at hf; omega) ns]
  have : TS.pidBytes k (p :: ps) = TS.pidBytes k ps := by
    unfold TS.pidBytes
    rw [List.filter_cons_of_neg (by simpa using hpid)]
  rw [this]

/-- every unit can be joined behind every prefix of packets of other PIDs -/
theorem exists_joined (k : Nat) (hk : k < 2 ^ 13) (pre : List Pkt) (hpre : ∀ q ∈ pre, q.WF ∧ q.body.Plain)
    (hst : ∀ q ∈ pre, TS.starts k q = false) (u : PesUnit) (hu : u.WF) :
    ∃ p ps c, Joined k pre p ps c ∧ bitsOfBytes c = u.enc := by
  obtain ⟨c, hc⟩ := bytes_of (enc_aligned u hu)
  have h := muxed hk c.length true c (by omega)
  refine ⟨_, _, c, ⟨?_, hst, h.first, fun q hq _ => h.payload q hq, h.bytes⟩, hc⟩
  intro q hq
  rcases List.mem_append.mp hq with hq | hq
  · exact hpre q hq
  · exact h.legal q hq

/-- the hypotheses can be met: a packet of another PID and the end of a unit of the PID in front -/
example : ∃ p ps c br, Joined 0x21 [TS.otherPid, TS.clockOnly] p ps c ∧
    IsSource (skipReads ([TS.otherPid, TS.clockOnly] ++ p :: ps).length 0x21 (joinTester 0x21)
      (([TS.otherPid, TS.clockOnly] ++ p :: ps).map encPkt).flatten) br ∧
    pesReads 9 br [3, 3] = .ok [([1, 2, 3], none), ([4], some .eof)] := by
  have hw : PesUnit.WF ⟨[pkt [1, 2], pkt [3]], some (pkt [4])⟩ := by
    refine ⟨fun p hp => ?_, (openUnit_wf [4]).2⟩
    simp only [List.mem_cons, List.not_mem_nil, or_false] at hp
    rcases hp with rfl | rfl
    · exact (closedUnit_wf [1, 2] (by decide)).1 _ (List.mem_cons_self ..)
    · exact (closedUnit_wf [3] (by decide)).1 _ (List.mem_cons_self ..)
  obtain ⟨p, ps, c, h, hc⟩ := exists_joined 0x21 (by decide) [TS.otherPid, TS.clockOnly] (by
    intro q hq
    simp only [List.mem_cons, List.not_mem_nil, or_false] at hq
    rcases hq with rfl | rfl
    · exact TS.otherPid_wf
    · exact TS.clockOnly_wf) (by
    intro q hq
    simp only [List.mem_cons, List.not_mem_nil, or_false] at hq
    rcases hq with rfl | rfl <;> rfl) _ hw
  obtain ⟨⟨br, hbr⟩, h2⟩ := C117_partial (fuel' := 9) h hw hc (Nat.le_refl _) (by decide)
  exact ⟨p, ps, c, br, h, hbr, by rw [h2 br hbr]; rfl⟩

/-- the hypotheses of the theorem on pictures can be met: five bytes of something else, then three pictures (C75), cut
anywhere into two PES packets, the first of known length -/
example (n : Nat) (hn : n < 65533) : ∃ (p : Pkt) (ps : List Pkt) (c : List UInt8) (u : PesUnit) (bits rest : List Bool)
    (imgs : List Video.Spec.Image), Joined 0x21 [TS.otherPid] p ps c ∧ u.WF ∧ bitsOfBytes c = u.enc ∧
    bitsOfBytes u.payload = bitsOf 40 0x1B2 ++ (bits ++ (bitsOf 32 0x1B7 ++ rest)) ∧
    (∀ j, 8 * j < (bitsOf 40 0x1B2).length →
      ((bitsOf 40 0x1B2 ++ (bits ++ (bitsOf 32 0x1B7 ++ rest))).drop (8 * j)).take 32 ≠ bitsOf 32 0x1B3) ∧
    Video.Spec.Entry Video.ExStream.three ∧
    Video.Spec.GroupsCode 1 1 0 none none (bitsOf 40 0x1B2).length Video.ExStream.three bits imgs ∧ imgs.length = 3 := by
  obtain ⟨bits, rest, imgs, c, hc, hno, hv, h3⟩ := skip_stream
  have hw : PesUnit.WF ⟨[pkt (c.take n)], some (pkt (c.drop n))⟩ :=
    ⟨(closedUnit_wf (c.take n) (by rw [List.length_take]; omega)).1, (openUnit_wf (c.drop n)).2⟩
  obtain ⟨p, ps, b, hb, hbc⟩ := exists_joined 0x21 (by decide) [TS.otherPid] (by
    intro q hq
    simp only [List.mem_cons, List.not_mem_nil, or_false] at hq
    subst hq; exact TS.otherPid_wf) (by
    intro q hq
    simp only [List.mem_cons, List.not_mem_nil, or_false] at hq
    subst hq; rfl) _ hw
  exact ⟨p, ps, b, _, bits, rest, imgs, hb, hw, hbc, by simp [PesUnit.payload, pkt, hc], hno, Video.ExStream.entry, hv, h3⟩

/-- the hypotheses of the negative case can be met -/
example : TS.otherPid.hdr.pusi = true ∧ TS.otherPid.hdr.pid ≠ 0x21 ∧ TS.otherPid.body.hasPayload = true := by decide

end Mpeg.Pipe
