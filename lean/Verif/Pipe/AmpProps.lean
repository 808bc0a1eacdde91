/-
C138: how many bytes the readers return for the bits of their input.
-/
import Verif.Pipe.AmpLemmas2
import Verif.PES.AcceptProps
set_option linter.all false
namespace Mpeg

namespace TS
open Spec

/-- **C138** Over any history of Reads of the payload reader, whatever their sizes and results, for any testers and every
source: at most 46 bytes are returned for every 8 bits of the source. -/
theorem C138_payload_partial (c : PRCfg) (fuel : Nat) (ns : List Nat) (br : BR) (outs : List (List UInt8 × Option Err)) (r' : PR)
    (h : PR.all c fuel ns (PR.new br) = (.ok outs, r')) : 4 * bytesIn outs ≤ 23 * br.size := by
  have := due_all c fuel ns (PR.new br) ⟨⟨Nat.zero_le _, Nat.zero_le _, fun _ => rfl⟩, fun _ => rfl⟩ outs r' h
  have e : (PR.new br).due = 184 * br.size := by simp [PR.due, PR.new, St.size]
  omega

/-- **C138** The same for the payload unit reader, up to the first error other than `EOP`, if the source itself does not
report `EOP`. -/
theorem C138_unit_partial (w : Tester) (fuel : Nat) (ns : List Nat) (br : BR) (hb : .eop ∉ br.stops)
    (outs : List (List UInt8 × Option Err)) (r' : PU)
    (h : PU.reads w fuel ns (PU.new br) = (.ok outs, r')) : 4 * bytesIn outs ≤ 23 * br.size := by
  have := due_ureads w fuel ns (PU.new br) (Nat.zero_le _) hb outs r' h
  have e : (PU.new br).due = 184 * br.size := by simp [PU.due, PU.new, St.size, Packet.new, Packet.payload]
  omega

/-- two units and a third that ends the second: 188 bytes and two headers give 368 bytes -/
example : .eop ∉ (BR.ofBytes (oneUnit ++ [0x47, 0x40, 0x21, 0x00] ++ [0x47, 0x40, 0x21, 0x00])).stops ∧
    (fun r : Res (List (List UInt8 × Option Err)) => match r with | .ok l => some (bytesIn l, l.map (·.2)) | _ => none)
      (PU.reads (isPID 0x21) 9 [200, 200, 1]
      (PU.new (BR.ofBytes (oneUnit ++ [0x47, 0x40, 0x21, 0x00] ++ [0x47, 0x40, 0x21, 0x00])))).1 =
      some (368, [some .eop, some .eop, some .eof]) := by
  refine ⟨by decide, by decide +kernel⟩

/-! The bound is attained in the limit. -/

/-- what four bytes that announce neither adaptation field nor payload leave in the packet -/
def shortened (p0 : Packet) (h : Hdr) : Packet :=
  { p0 with transportErrorIndicator := h.tei, payloadUnitStartIndicator := h.pusi, transportPriority := h.prio, pid := h.pid,
            transportScramblingControl := h.tsc, adaptationFieldControl := 0, continuityCounter := h.cc }

theorem next_short {r : List Bool} {pos : Nat} {stop : Err} {later : List (List Bool × Err)} (p0 : Packet) (h : Hdr) (hw : h.WF)
    (h8 : pos % 8 = 0) :
    Packet.next ⟨p0, ⟨encHdr h 0 ++ r, pos, stop, later⟩⟩ = (.ok (), ⟨shortened p0 h, ⟨r, pos + 32, stop, later⟩⟩) := by
  obtain ⟨w1, w2, w3⟩ := hw
  have w2' : h.tsc < 2 ^ 2 := w2
  have w3' : h.cc < 2 ^ 4 := w3
  have e : encHdr h 0 ++ r = bitsOf 8 0x47 ++ (hdrTail h 0 ++ r) := by simp [encHdr, hdrTail]
  rw [next_eq, e]
  simp only [Go.bind_apply, St.lift, sync_enc h8]
  simp only [afterSync, hdrTail, List.cons_append, List.append_assoc, Go.bind_apply, readInto,
    BR.read1_cons, BR.read_bitsOf, St.lift, Go.modify_apply, Nat.mod_eq_of_lt w1,
    Nat.mod_eq_of_lt w2', Nat.mod_eq_of_lt w3', Nat.zero_mod]
  simp [shortened]

theorem run_short {stop : Err} (h : Hdr) (hw : h.WF) : ∀ (k : Nat) (p0 : Packet) (pos : Nat), pos % 8 = 0 → p0.pid = h.pid →
    ∃ ps p', Run ⟨p0, ⟨(List.replicate k (encHdr h 0)).flatten, pos, stop, []⟩⟩ ps ⟨p', ⟨[], pos + 32 * k, stop, []⟩⟩ ∧
      payloads (isPID h.pid) ps = (List.replicate k p0.payload).flatten ∧ ps.length = k
  | 0, p0, pos, h8, hp => ⟨[], p0, .nil _, rfl, rfl⟩
  | k + 1, p0, pos, h8, hp => by
    have h1 := next_short (r := (List.replicate k (encHdr h 0)).flatten) (pos := pos) (stop := stop) (later := []) p0 h hw h8
    obtain ⟨ps, p', h2, h3, h4⟩ := run_short (stop := stop) h hw k (shortened p0 h) (pos + 32) (by omega) rfl
    refine ⟨shortened p0 h :: ps, p', ?_, ?_, by simp [h4]⟩
    · rw [List.replicate_succ, List.flatten_cons]
      have e : pos + 32 * (k + 1) = pos + 32 + 32 * k := by omega
      rw [e]
      exact .cons h1 h2
    · have : (shortened p0 h).payload = p0.payload := rfl
      rw [this] at h3
      unfold payloads at h3 ⊢
      rw [List.filter_cons_of_pos (by simp [isPID, shortened]), List.map_cons, List.flatten_cons, h3, this,
        List.replicate_succ, List.flatten_cons]

/-- **C138** (the bound is attained in the limit) A packet with 184 bytes of payload, followed by `k` packets that end
after the four bytes of their headers: the payload is returned `k + 1` times, `184 (k + 1)` bytes for `188 + 4 k`. -/
theorem C138_payload_rate (h : Hdr) (hw : h.WF) (d : List UInt8) (hd : d.length = 184) (k : Nat) :
    (encPkt ⟨h, .payload d⟩ ++ (List.replicate k (encHdr h 0)).flatten).length = 8 * (188 + 4 * k) ∧
    (PR.reads { whre := isPID h.pid } (k + 2) [184 * (k + 1)]
      (PR.new (BR.ofBits (encPkt ⟨h, .payload d⟩ ++ (List.replicate k (encHdr h 0)).flatten)))).1 =
      .ok [((List.replicate (k + 1) d).flatten, none)] := by
  have hwp : Pkt.WF ⟨h, .payload d⟩ := ⟨hw, hd⟩
  refine ⟨?_, ?_⟩
  · rw [List.length_append, length_encPkt _ hwp, List.length_flatten, List.map_replicate, length_encHdr, List.sum_replicate_nat]
    omega
  · have h1 := next_enc (r := (List.replicate k (encHdr h 0)).flatten) (pos := 0) (stop := .eof) (later := []) Packet.new
      ⟨h, .payload d⟩ hwp trivial rfl
    obtain ⟨ps, p', h2, h3, h4⟩ := run_short (stop := .eof) h hw k (result Packet.new h (.payload d)) (0 + 188 * 8) rfl rfl
    have h5 := next_at_end (s := ⟨p', ⟨[], 0 + 188 * 8 + 32 * k, .eof, []⟩⟩) rfl rfl (by simp only; omega)
    have h6 : (result Packet.new h (.payload d)).payload = d := by simp [result, Packet.payload]
    rw [reads_new _ rfl]
    obtain ⟨r', h7, _⟩ := reads_deliver { whre := isPID h.pid } h5 [184 * (k + 1)]
      { PR.new (BR.ofBits (encPkt ⟨h, .payload d⟩ ++ (List.replicate k (encHdr h 0)).flatten)) with started := true }
      (result Packet.new h (.payload d) :: ps) ⟨rfl, rfl, .cons h1 h2, fun _ _ => rfl⟩ (k + 2) (by simp [h4])
    have h8 := congrArg Prod.fst h7
    rw [h6] at h3
    have h9 : payloads (isPID h.pid) (result Packet.new h (.payload d) :: ps) = (List.replicate (k + 1) d).flatten := by
      unfold payloads at h3 ⊢
      rw [List.filter_cons_of_pos (by simp [isPID, result]), List.map_cons, List.flatten_cons, h3, h6,
        List.replicate_succ, List.flatten_cons]
    have h10 : ((List.replicate (k + 1) d).flatten).length = 184 * (k + 1) := by
      rw [List.length_flatten, List.map_replicate, List.sum_replicate_nat, hd]; omega
    rw [h8]
    simp only [content, PR.new, List.nil_append, h9, deliver, h10, Nat.le_refl, if_true]
    rw [List.take_of_length_le (Nat.le_of_eq h10)]

end TS

namespace PES
open Spec

/-- **C138** Over any history of Reads of the PES payload reader, whatever their sizes and results, for every source that
ends for good: `n` bits of the source give at most `n² / 384` bytes. -/
theorem C138_payload_partial (fuel : Nat) (ns : List Nat) (br : BR) (hb : br.later = [])
    (outs : List (List UInt8 × Option Err)) (r' : PR) (h : PR.all fuel ns (PR.new br) = (.ok outs, r')) :
    384 * bytesIn outs ≤ br.size * br.size := by
  have := due_all (N := br.size) (M := br.size) (p := true) (Nat.le_refl _) (.inl rfl) fuel ns (PR.new br)
    ⟨Nat.le_refl _, .inl (Nat.zero_le _), fun _ => hb⟩ outs r' h
  have e : (PR.new br).due br.size = br.size * br.size := by simp [PR.due, PR.new, St.size]
  omega

/-- **C138** For every source, also one that goes on after an error: `n` bits give at most `n (n + 2^35) / 384` bytes. -/
theorem C138_source_partial (fuel : Nat) (ns : List Nat) (br : BR)
    (outs : List (List UInt8 × Option Err)) (r' : PR) (h : PR.all fuel ns (PR.new br) = (.ok outs, r')) :
    384 * bytesIn outs ≤ (br.size + 2 ^ 35) * br.size := by
  have := due_all (N := br.size) (M := br.size + 2 ^ 35) (p := false) (Nat.le_add_right _ _) (.inr (Nat.le_add_left _ _)) fuel ns
    (PR.new br) ⟨Nat.le_refl _, .inl (Nat.zero_le _), fun h => by cases h⟩ outs r' h
  have e : (PR.new br).due (br.size + 2 ^ 35) = (br.size + 2 ^ 35) * br.size := by simp [PR.due, PR.new, St.size]
  omega

/-- **C138** (the growth is quadratic) A packet with payload `d`, followed by `k` empty padding packets of six bytes each:
the payload is returned `k + 1` times. -/
theorem C138_payload_rate (d : List UInt8) (hd : d.length < 65533) (k : Nat) :
    (((Item.media 0xe0 {} d :: List.replicate k (Item.padding [])).map Item.enc).flatten).length = 8 * (9 + d.length + 6 * k) ∧
    (PR.reads (k + d.length + 4) [d.length * (k + 1)]
      (PR.new (BR.ofBits ((Item.media 0xe0 {} d :: List.replicate k (Item.padding [])).map Item.enc).flatten))).1 =
      .ok [((List.replicate (k + 1) d).flatten, none)] := by
  have hw0 : Hdr.WF {} := by decide +kernel
  have hw : ∀ i ∈ Item.media 0xe0 {} d :: List.replicate k (Item.padding []), i.WF := by
    intro i hi
    rcases List.mem_cons.1 hi with rfl | hi
    · refine ⟨by decide, by decide, hw0, by decide +kernel, ?_⟩
      have : Hdr.dataLen {} = 0 := by decide +kernel
      omega
    · obtain ⟨_, rfl⟩ := List.mem_replicate.1 hi
      show 0 < 65536; decide
  have hl : (((Item.media 0xe0 {} d :: List.replicate k (Item.padding [])).map Item.enc).flatten).length =
      8 * (9 + d.length + 6 * k) := by
    rw [List.map_cons, List.flatten_cons, List.length_append, List.map_replicate, List.length_flatten, List.map_replicate,
      List.sum_replicate_nat]
    show (encPacket 0xe0 {} d).length + k * (encPadding []).length = _
    rw [length_encPacket hw0, length_encPadding]
    have : Hdr.dataLen {} = 0 := by decide +kernel
    simp only [this, List.length_nil]
    omega
  refine ⟨hl, ?_⟩
  obtain ⟨r', h⟩ := C26_stream_exact _ hw [d.length * (k + 1)] (k + d.length + 4) (by rw [hl]; omega)
  have hs : ∀ k, seen d (List.replicate k (Item.padding [])) = List.replicate k d := by
    intro k
    induction k with
    | zero => rfl
    | succ k ih => simp only [List.replicate_succ, seen, ih]
  have h2 : (seen [] (Item.media 0xe0 {} d :: List.replicate k (Item.padding []))).flatten = (List.replicate (k + 1) d).flatten := by
    simp only [seen, hs, List.replicate_succ]
  have h10 : ((List.replicate (k + 1) d).flatten).length = d.length * (k + 1) := by
    rw [List.length_flatten, List.map_replicate, List.sum_replicate_nat, Nat.mul_comm]
  rw [h, h2]
  simp only [TS.Spec.deliver, h10, Nat.le_refl, if_true]
  rw [List.take_of_length_le (Nat.le_of_eq h10)]

/-- a packet that announces less than its header takes, the end of a payload unit, and an empty padding packet -/
def stale : BR := ⟨bitsOfBytes [0, 0, 1, 0xe0, 0, 1, 0x80, 0, 0], 0, .eop, [(bitsOfBytes [0, 0, 1, 0xbe, 0, 0], .eof)]⟩

/-- the packet after the first `Next` -/
def staleSt (z : List UInt8) : St :=
  ⟨{ streamID := 0xe0, packetLength := 1,
     header := some (viewHdr {}), payload := z }, ⟨bitsOfBytes [0, 0, 1, 0xbe, 0, 0], 72, .eof, []⟩⟩

theorem stale_first : Packet.next ⟨{}, stale⟩ = (.err .eop, staleSt (List.replicate (2 ^ 32 - 2) 0)) := by
  have h1 : St.lift prefix24 ⟨{}, stale⟩ = (.ok (), ⟨{}, stale.adv 24⟩) := rfl
  have h2 : readInto (BR.read 8) 0 (fun v p => { p with streamID := v }) ⟨{}, stale.adv 24⟩ =
    (.ok 0xe0, ⟨{ streamID := 0xe0 }, stale.adv 32⟩) := rfl
  have h3 : readInto (BR.read 16) 0 (fun v p => { p with packetLength := v }) ⟨{ streamID := 0xe0 }, stale.adv 32⟩ =
    (.ok 1, ⟨{ streamID := 0xe0, packetLength := 1 }, stale.adv 48⟩) := rfl
  have h4 : headerInto ⟨{ streamID := 0xe0, packetLength := 1 }, stale.adv 48⟩ =
    (.ok 3, ⟨{ streamID := 0xe0, packetLength := 1, header := some (viewHdr {}) }, stale.adv 72⟩) := by rfl
  unfold Packet.next
  rw [Go.bind_ok h1, Go.bind_ok h2, Go.bind_ok h3]
  unfold Packet.body
  rw [if_pos (by decide), Go.bind_ok h4, if_pos (by decide)]
  have h5 : TS.sub32 1 3 = 2 ^ 32 - 2 := by decide +kernel
  rw [h5]
  generalize hk : 2 ^ 32 - 2 = k
  have hk0 : ¬ 8 * k ≤ 0 := by omega
  have h6 : BR.readFull k (stale.adv 72) = (.ok ([], some .eop), ⟨bitsOfBytes [0, 0, 1, 0xbe, 0, 0], 72, .eof, []⟩) := by
    have e : stale.adv 72 = ⟨[], 72, .eop, [(bitsOfBytes [0, 0, 1, 0xbe, 0, 0], .eof)]⟩ := rfl
    rw [e]
    unfold BR.readFull
    simp only [List.length_nil]
    rw [if_neg hk0]
    rfl
  unfold boundedPayload
  simp only [h6]
  simp [staleSt]

theorem stale_second (z : List UInt8) : ∃ st, Packet.next (staleSt z) = (.ok (), st) ∧ st.pkt.payload = z := ⟨_, rfl, rfl⟩

/-- **C138** (with sources that go on after an error) Fifteen bytes of input give up to `2^32 - 2` bytes, all of them
zero. -/
theorem C138_stale (n : Nat) (hn : n ≤ 2 ^ 32 - 2) : stale.size = 8 * 15 ∧
    ∃ r', PR.all 3 [1, n] (PR.new stale) = (.ok [([], some .eop), (List.replicate n 0, none)], r') := by
  refine ⟨by decide +kernel, ?_⟩
  have hf := stale_first
  have hl : (List.replicate (2 ^ 32 - 2) (0 : UInt8)).length = 2 ^ 32 - 2 := List.length_replicate
  have ht : (List.replicate (2 ^ 32 - 2) (0 : UInt8)).take n = List.replicate n 0 := by
    rw [List.take_replicate, Nat.min_eq_left hn]
  generalize List.replicate (2 ^ 32 - 2) (0 : UInt8) = z at *
  have h1 : PR.read 3 1 (PR.new stale) = (.ok ([], some .eop), ⟨staleSt z, []⟩) := by
    unfold PR.read PR.fill
    simp only [PR.new, List.length_nil, Nat.sub_zero, Nat.one_ne_zero, if_false, hf, List.take_nil, List.drop_nil]
  have h2 : ∃ r', PR.read 3 n ⟨staleSt z, []⟩ = (.ok (List.replicate n 0, none), r') := by
    obtain ⟨st, h3, h4⟩ := stale_second z
    unfold PR.read PR.fill
    by_cases h0 : n = 0
    · subst h0
      exact ⟨_, rfl⟩
    · simp only [List.length_nil, Nat.sub_zero, h0, if_false, h3, List.drop_nil, List.take_nil, List.nil_append, h4, ht]
      unfold PR.fill
      rw [if_pos (by rw [hl]; omega)]
      exact ⟨_, rfl⟩
  obtain ⟨r', h2⟩ := h2
  have h3 : PR.all 3 [n] ⟨staleSt z, []⟩ = (.ok [(List.replicate n 0, none)], r') := by
    unfold PR.all
    rw [Go.bind_ok h2]
    rfl
  refine ⟨r', ?_⟩
  unfold PR.all
  rw [Go.bind_ok h1, Go.bind_ok h3]
  rfl

end PES

namespace PS

/-- **C138** Over any history of Reads of the program stream reader, whatever their sizes and results, for every source:
no more bytes are stored than the source contains. -/
theorem C138_pack (ns : List Nat) (br : BR) (outs : List RR) (r' : PackReader)
    (h : PackReader.all ns (PackReader.new br) = (.ok outs, r')) : 8 * stored outs ≤ br.size := by
  have := due_all ns (PackReader.new br) outs r' h
  have e : (PackReader.new br).due = br.size := by simp [PackReader.due, PackReader.new]
  omega

/-- a pack with one packet; the second Read fails after the payload has been stored -/
example : (fun r : Res (List RR) => match r with | .ok l => some (stored l, l.map (·.count)) | _ => none)
    (PackReader.all [2, 3] (PackReader.new (BR.ofBytes [0, 0, 1, 0xe0, 0, 7, 0x80, 0, 0, 1, 2, 3, 4]))).1 =
      some (4, [2, 0]) := by decide +kernel

end PS
end Mpeg
