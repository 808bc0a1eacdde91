/-
Property theorems C01-C09: transport packet parsing.
Every theorem quantifies over all packets / all inputs; the `example`s show that the
hypotheses are satisfiable.
-/
import Verif.TS.Trunc
set_option linter.all false
namespace Mpeg.TS
open Spec

/-- a sample header and packets, used to show that hypotheses are satisfiable -/
def hdr0 : Hdr := ⟨false, true, false, 0x1fff, 2, 9⟩
def af0 : AF :=
  { discontinuity := true, randomAccess := false, esPriority := true,
    pcr := some ⟨2 ^ 33 - 1, 5, 299⟩, opcr := none, spliceCountdown := some 200,
    priv := some [1, 2, 3], ext := some ⟨some (true, 77), some (3, 1234), none, 31, []⟩,
    stuffing := [255, 255] }
def pkt0 : Pkt := ⟨hdr0, .payload (List.replicate 184 0xab)⟩
def pkt1 : Pkt := ⟨hdr0, .afPayload (some af0) (List.replicate (183 - af0.len) 0xcd)⟩

theorem hdr0_wf : hdr0.WF := by decide
theorem pkt0_wf : pkt0.WF := ⟨hdr0_wf, List.length_replicate⟩
theorem pkt1_wf : pkt1.WF ∧ pkt1.body.Plain := by
  refine ⟨⟨hdr0_wf, ?_⟩, ?_⟩ <;> simp only [pkt1, Body.WF, List.length_replicate] <;> simp [wf?, AF.WF, AF.Fields, Clock.WF, af0, Ext.WF, AF.len, len?,
    optLen, Ext.len, Body.Plain, plain?, AF.Plain, Ext.Plain]

section
variable {r : List Bool} {pos : Nat} {stop : Err} {later : List (List Bool × Err)}

/-- **C01.** Parsing the 188 bytes of a payload-only packet, followed by anything, reports exactly the
header fields and the payload and leaves the reader exactly behind the packet; `NewPacket` is the
case `p0 = Packet.new`. -/
theorem C01_payload_only_roundtrip (p0 : Packet) (h : Hdr) (d : List UInt8) (hh : h.WF)
    (hd : d.length = 184) (h8 : pos % 8 = 0) :
    ∃ p, Packet.next ⟨p0, ⟨encPkt ⟨h, .payload d⟩ ++ r, pos, stop, later⟩⟩ =
        (.ok (), ⟨p, ⟨r, pos + 188 * 8, stop, later⟩⟩) ∧
      HdrIs p h 1 ∧ p.payload = d := by
  refine ⟨_, next_enc p0 ⟨h, .payload d⟩ ⟨hh, hd⟩ trivial h8, result_hdr p0 h _, 
    (result_body p0 h (.payload d)).1⟩

example : ∃ (h : Hdr) (d : List UInt8), h.WF ∧ d.length = 184 ∧ h.pid = 0x1fff ∧ d ≠ [] :=
  ⟨hdr0, List.replicate 184 0xab, hdr0_wf, List.length_replicate, rfl, by decide⟩

/-- **C02.** Packets with an adaptation field (with or without payload): all fields of the adaptation
field are reported, the payload is what follows it, and exactly 188 bytes are consumed.  The extension
may be present if it carries neither seamless splice data nor reserved bytes (see C09). -/
theorem C02_adaptation_roundtrip (p0 : Packet) (p : Pkt) (hw : p.WF) (hp : p.body.Plain)
    (h8 : pos % 8 = 0) :
    ∃ q, Packet.next ⟨p0, ⟨encPkt p ++ r, pos, stop, later⟩⟩ =
        (.ok (), ⟨q, ⟨r, pos + 188 * 8, stop, later⟩⟩) ∧
      HdrIs q p.hdr p.body.afc ∧ AfterBody p0 q p.body :=
  ⟨_, next_enc p0 p hw hp h8, result_hdr p0 p.hdr p.body, result_body p0 p.hdr p.body⟩

example : pkt1.WF ∧ pkt1.body.Plain ∧ pkt1.body.afc = 3 := ⟨pkt1_wf.1, pkt1_wf.2, rfl⟩

/-- With payload and adaptation field the payload has `183 - adaptation_field_length` bytes. -/
theorem C02_payload_length (p0 : Packet) (h : Hdr) (a : Option AF) (d : List UInt8)
    (hw : Pkt.WF ⟨h, .afPayload a d⟩) (hp : plain? a) (h8 : pos % 8 = 0) :
    ∃ q, Packet.next ⟨p0, ⟨encPkt ⟨h, .afPayload a d⟩ ++ r, pos, stop, later⟩⟩ =
        (.ok (), ⟨q, ⟨r, pos + 188 * 8, stop, later⟩⟩) ∧
      q.payload = d ∧ q.payload.length = 183 - len? a ∧ q.adaptationField = some (viewAF? a) := by
  obtain ⟨q, h1, _, h3, h4⟩ := C02_adaptation_roundtrip (r := r) (stop := stop) (later := later) p0 _ hw hp h8
  refine ⟨q, h1, h3, ?_, h4⟩
  have := hw.2
  simp only [Body.WF] at this
  rw [h3]; omega

/-- **C03.** Resynchronisation.  `pre` is the unread rest of the current byte, `g` the bytes before the
next sync byte.  Up to 187 garbage bytes are skipped and the packet behind them is parsed. -/
theorem C03_resync (p0 : Packet) (p : Pkt) (hw : p.WF) (hp : p.body.Plain)
    (pre : List Bool) (hpre : pre.length = (8 - pos % 8) % 8)
    (g : List UInt8) (hg : ∀ b ∈ g, b ≠ 0x47) (hn : g.length ≤ 187) :
    ∃ q, Packet.next ⟨p0, ⟨pre ++ (bitsOfBytes g ++ (encPkt p ++ r)), pos, stop, later⟩⟩ =
        (.ok (), ⟨q, ⟨r, pos + pre.length + 8 * g.length + 188 * 8, stop, later⟩⟩) ∧
      HdrIs q p.hdr p.body.afc ∧ AfterBody p0 q p.body := by
  have hg' : ∀ b ∈ g, b.toNat ≠ 0x47 := by
    intro b hb he
    exact hg b hb (UInt8.toNat_inj.mp (by rw [he]; rfl))
  have e : encPkt p ++ r = bitsOf 8 0x47 ++ (hdrTail p.hdr p.body.afc ++ (encBody p.body ++ r)) := by
    simp [encPkt, encHdr, hdrTail]
  refine ⟨result p0 p.hdr p.body, ?_, result_hdr _ _ _, result_body _ _ _⟩
  rw [next_eq, e]
  simp only [Go.bind_apply, St.lift, sync_garbage pre hpre g hg' hn,
    afterSync_enc p0 p.hdr p.body hw.1 hw.2 hp]

/-- With 188 or more garbage bytes `ErrNoSyncByte` is returned, exactly 188 bytes have been discarded
(plus the rest of a partly read byte) and the packet value is untouched. -/
theorem C03_no_sync (p0 : Packet) (pre : List Bool) (hpre : pre.length = (8 - pos % 8) % 8)
    (g : List UInt8) (hg : ∀ b ∈ g, b ≠ 0x47) (hn : g.length = 188) :
    Packet.next ⟨p0, ⟨pre ++ (bitsOfBytes g ++ r), pos, stop, later⟩⟩ =
      (.err .noSyncByte, ⟨p0, ⟨r, pos + pre.length + 188 * 8, stop, later⟩⟩) := by
  have hg' : ∀ b ∈ g, b.toNat ≠ 0x47 := by
    intro b hb he
    exact hg b hb (UInt8.toNat_inj.mp (by rw [he]; rfl))
  rw [next_eq]
  simp only [Go.bind_apply, St.lift, sync_fail pre hpre g hg' hn]

example : ∃ g : List UInt8, (∀ b ∈ g, b ≠ 0x47) ∧ g.length = 187 :=
  ⟨List.replicate 187 0x48, by intro b hb; rw [(List.mem_replicate.mp hb).2]; decide, List.length_replicate⟩

end

/-- **C04** (partial: the full claim is false, see the three counterexamples below).
Whenever `Packet.Next` succeeds on an aligned reader showing a sync byte, on any input shorter than
4 GiB, then: a packet with payload (control 01, or 11 without extension) has consumed exactly 188 bytes;
without payload (10, no extension) it has consumed the header and the adaptation field, which is 188
bytes exactly when the adaptation field length is 183; control 00 consumes the 4 header bytes only. -/
theorem C04_framing_partial (p0 q : Packet) (s s' : BR) (h8 : s.pos % 8 = 0) (hl : 8 ≤ s.bits.length)
    (hs : natOfBits (s.bits.take 8) = 0x47) (hsz : s.bits.length < 8 * (2 ^ 32 - 256))
    (h : Packet.next ⟨p0, s⟩ = (.ok (), ⟨q, s'⟩))
    (hext : ∀ af, q.adaptationField = some af → af.adaptationExtension = none) :
    (q.adaptationFieldControl = 1 → s'.pos = s.pos + 188 * 8 ∧ q.payload.length = 184) ∧
    (q.adaptationFieldControl = 3 → s'.pos = s.pos + 188 * 8 ∧
      ∃ af, q.adaptationField = some af ∧ af.length + 1 + q.payload.length = 184) ∧
    (q.adaptationFieldControl = 2 →
      ∃ af, q.adaptationField = some af ∧ s'.pos = s.pos + 8 * (5 + af.length)) ∧
    (q.adaptationFieldControl = 0 → s'.pos = s.pos + 8 * 4) ∧
    q.adaptationFieldControl < 4 ∧
    s'.bits = s.bits.drop (s'.pos - s.pos) := by
  rw [next_eq] at h
  simp only [Go.bind_apply, St.lift, isAligned_sync h8 hs hl] at h
  obtain ⟨l, b, t, e, hlt, hc⟩ := afterSync_inv h
  have t0 := (BR.took_adv hl).trans t
  have e0 : (s.bits.take 8 ++ l).length = 32 := by simp [e]; omega
  have hb : b.bits.length < 8 * (2 ^ 32 - 256) := by
    have := t0.bits
    rw [this] at hsz; simp at hsz; omega
  have hdrop : ∀ {x y : BR} {l : List Bool}, BR.Took x l y → y.bits = x.bits.drop (y.pos - x.pos) := by
    intro x y l hh; rw [hh.bits, hh.pos]; simp
  simp only at hc hlt
  rcases hc with ⟨a, hb', _⟩ | ⟨a, hp, t1⟩ | ⟨af, len, a, hn, ha, _⟩ | ⟨af, len, b', a, hn, ha, hle, hp, t1⟩
  · simp [a]; subst hb'
    refine ⟨by rw [t0.pos, e0], hdrop t0⟩
  · have T := t0.trans t1
    simp only [a]
    refine ⟨fun _ => ⟨?_, hp⟩, by simp, by simp, by simp, by simp, hdrop T⟩
    rw [T.pos]; simp only [List.length_append] at e0 ⊢; simp [hp] at e0 ⊢; omega
  · obtain ⟨l2, t2, e2, e3, e4⟩ := newAdaptationField_inv hn (hext af ha) hb
    have T := t0.trans t2
    simp only [a]
    refine ⟨by simp, by simp, fun _ => ⟨af, ha, ?_⟩, by simp, by simp, hdrop T⟩
    rw [T.pos]; simp only [List.length_append] at e0 ⊢; omega
  · obtain ⟨l2, t2, e2, e3, e4⟩ := newAdaptationField_inv hn (hext af ha) hb
    have T := (t0.trans t2).trans t1
    have hlen : len ≤ 183 := by
      by_cases hh : len ≤ 183
      · exact hh
      · unfold sub32 at hle; omega
    rw [sub32_le (by omega) (by omega)] at hp
    simp only [a]
    refine ⟨by simp, fun _ => ⟨?_, af, ha, by omega⟩, by simp, by simp, by simp, hdrop T⟩
    rw [T.pos]; simp only [List.length_append] at e0 ⊢; simp [hp] at e0 ⊢; omega

/-- C04 fails for adaptation fields with seamless splice data: 39 of 40 bits are read. -/
theorem C04_false_splice : ∃ bs : List UInt8, bs.length = 188 ∧
    (newPacket (BR.ofBytes bs)).1 = .ok () ∧ (newPacket (BR.ofBytes bs)).2.br.pos = 188 * 8 - 1 :=
  ⟨0x47 :: 0 :: 0 :: 0x20 :: 183 :: 0x03 :: 174 ::
    (List.replicate 174 0 ++ [6, 0x20, 0xf1, 0, 1, 0, 1]), by decide +kernel⟩

/-- C04 fails for adaptation fields that do not fill the packet (control 10, length below 183). -/
theorem C04_false_short_af : ∃ bs : List UInt8, bs.length = 188 ∧
    (newPacket (BR.ofBytes bs)).1 = .ok () ∧ (newPacket (BR.ofBytes bs)).2.br.pos = 5 * 8 :=
  ⟨0x47 :: 0 :: 0 :: 0x20 :: List.replicate 184 0, by decide +kernel⟩

/-- C04 fails for private data longer than the adaptation field: the number of stuffing bytes underflows, so `Next` takes
everything that follows, here two good packets, as stuffing. -/
theorem C04_false_private : ∃ bad good : List UInt8, bad.length = 188 ∧ good.length = 188 ∧
    (Packet.next ⟨Packet.new, BR.ofBytes (good ++ good)⟩).1 = .ok () ∧
    (Packet.next ⟨Packet.new, BR.ofBytes (bad ++ good ++ good)⟩).1 = .err .unexpectedEOF ∧
    (Packet.next ⟨Packet.new, BR.ofBytes (bad ++ good ++ good)⟩).2.br.bits = [] :=
  ⟨0x47 :: 0x01 :: 0 :: 0x30 :: 2 :: 0x02 :: 1 :: List.replicate 181 0,
    0x47 :: 0x01 :: 0 :: 0x10 :: List.replicate 184 7, by decide +kernel⟩

/-- **C05.** On every proper prefix (in bytes) of a well-formed packet `Packet.Next` fails with an
end-of-input error; on the empty input with `io.EOF`.  (C05 asks for payload-only packets; this covers
packets with adaptation fields as well.) -/
theorem C05_truncated (p0 : Packet) (p : Pkt) (hw : p.WF) (hp : p.body.Plain) (k : Nat) (hk : k < 188) :
    ∃ e q s', Packet.next ⟨p0, BR.ofBits ((encPkt p).take (8 * k))⟩ = (.err e, ⟨q, s'⟩) ∧
      IsEnd e ∧ (k = 0 → e = .eof) := by
  have hlen := length_encPkt p hw
  by_cases h0 : k = 0
  · subst h0
    refine ⟨.eof, p0, ⟨[], 0, .eof, []⟩, ?_, by simp [IsEnd], fun _ => rfl⟩
    simp [next_eq, Go.bind_apply, St.lift, sync, isAligned, BR.ofBits, BR.isAligned, BR.peek, BR.failErr,
      BR.failTo]
  · let s : St := ⟨p0, BR.ofBits ((encPkt p).take (8 * k))⟩
    have hbl : ((encPkt p).take (8 * k)).length = 8 * k := by simp [hlen]; omega
    have hhead : ((encPkt p).take (8 * k)).take 8 = bitsOf 8 0x47 := by
      rw [List.take_take, Nat.min_eq_left (by omega)]
      simp [encPkt, encHdr]
    have hplain : s.br.Plain := ⟨rfl, rfl⟩
    have hcont : ContAt St.ext Packet.next s ((encPkt p).drop (8 * k)) := by
      rw [next_eq]
      have hs : natOfBits (s.br.bits.take 8) = 0x47 := by
        show natOfBits (((encPkt p).take (8 * k)).take 8) = _
        rw [hhead, natOfBits_bitsOf]
      have hl8 : 8 ≤ s.br.bits.length := by
        show 8 ≤ ((encPkt p).take (8 * k)).length
        omega
      refine ContAt.bind (cont_lift (cont_sync hplain rfl hl8 hs)) fun _ s1 h1 => cont_afterSync ?_
      obtain ⟨k1, _⟩ := lift_inv h1
      rw [isAligned_sync rfl hs hl8] at k1
      simp only [Prod.mk.injEq, true_and] at k1
      rw [← k1]
      refine ⟨BR.plain_adv hplain 8, ?_⟩
      show 8 ∣ (((encPkt p).take (8 * k)).drop 8).length
      rw [List.length_drop, hbl]; omega
    have hfull : Packet.next (St.ext s ((encPkt p).drop (8 * k))) =
        (.ok (), ⟨result p0 p.hdr p.body, ⟨[], 0 + 188 * 8, .eof, []⟩⟩) := by
      have := next_enc (r := []) (pos := 0) (stop := .eof) (later := []) p0 p hw hp rfl
      have e : St.ext s ((encPkt p).drop (8 * k)) = ⟨p0, ⟨encPkt p ++ [], 0, .eof, []⟩⟩ := by
        simp [s, St.ext, BR.ext, BR.ofBits, List.take_append_drop]
      rw [e]; exact this
    obtain ⟨e, s', h1, h2⟩ := hcont.not_ok hfull (by
      intro s' he
      have : (s'.br.bits ++ (encPkt p).drop (8 * k)) = [] := by
        have := congrArg (fun x : St => x.br.bits) he
        simpa [St.ext, BR.ext] using this
      have : ((encPkt p).drop (8 * k)).length = 0 := by
        have := congrArg List.length this; simp at this; simp; omega
      rw [List.length_drop, hlen] at this; omega)
    exact ⟨e, s'.pkt, s'.br, h1, h2, fun h => absurd h h0⟩

example : pkt0.WF ∧ pkt0.body.Plain := ⟨pkt0_wf, trivial⟩

/-- Addition to C05: a plain stream that ends inside the payload, at any byte and also directly after the
header, is reported as `io.ErrUnexpectedEOF`, never as a clean `io.EOF`. -/
theorem C05_in_payload (p0 : Packet) (h : Hdr) (hw : h.WF) (d : List UInt8) (hd : d.length < 184) :
    (Packet.next ⟨p0, BR.ofBits (encHdr h 1 ++ bitsOfBytes d)⟩).1 = .err .unexpectedEOF := by
  obtain ⟨w1, w2, w3⟩ := hw
  have w2' : h.tsc < 2 ^ 2 := w2
  have w3' : h.cc < 2 ^ 4 := w3
  have e : encHdr h 1 ++ bitsOfBytes d = bitsOf 8 0x47 ++ (hdrTail h 1 ++ bitsOfBytes d) := by
    simp [encHdr, hdrTail]
  rw [next_eq, e]
  have hr : ∀ (q : Packet) (n : Nat),
      (readPayload maxPayloadSize ⟨q, ⟨bitsOfBytes d, n, .eof, []⟩⟩).1 = .err .unexpectedEOF := by
    intro q n
    have hl : ¬ 8 * maxPayloadSize ≤ (bitsOfBytes d).length := by
      simp [maxPayloadSize]; omega
    simp only [readPayload, BR.readFull, if_neg hl, BR.failErr]
    by_cases h0 : (bitsOfBytes d).isEmpty = true
    · simp [h0]
    · simp [h0]
  have ho : Go.opt (((1 : Nat) == 2) || (1 == 3)) maxPayloadSize (do
      let len ← readAdaptation
      pure (sub32 maxPayloadSize (len + 1))) = (pure maxPayloadSize : Go St Nat) := rfl
  have ho' : Go.opt (((1 : Nat) == 1) || (1 == 3)) () (readPayload maxPayloadSize) =
    readPayload maxPayloadSize := rfl
  simp only [BR.ofBits, Go.bind_apply, St.lift, sync_enc (pos := 0) rfl, afterSync, hdrTail, List.cons_append,
    List.append_assoc, readInto, BR.read1_cons, BR.read_bitsOf, Go.modify_apply, Nat.mod_eq_of_lt w1,
    Nat.mod_eq_of_lt w2', Nat.mod_eq_of_lt w3', show 1 % 2 ^ 2 = 1 from rfl, ho, ho', Go.pure_apply, hr]

example : hdr0.WF ∧ ([1, 2] : List UInt8).length < 184 := ⟨pkt0_wf.1, by decide⟩

/-- **C06** (partial: the full claim is false, see `C06_false`).  `Packet.Next` returns on every input,
and the only panic there is occurs for a packet with adaptation_field_control 11 whose adaptation
field claims to be longer than 183 bytes. -/
theorem C06_panic_only_partial (s : St) :
    (Packet.next s).1 ≠ .hang ∧
    ((Packet.next s).1 = .panic → (Packet.next s).2.pkt.adaptationFieldControl = 3 ∧
      ∃ af, (Packet.next s).2.pkt.adaptationField = some af ∧ af.length > 183) := by
  refine ⟨next_ne_hang s, fun h => ?_⟩
  cases hh : Packet.next s with
  | mk r s' =>
    rw [hh] at h
    simp only at h
    subst h
    exact next_panic hh

/-- ... and there it always panics: for every header and every adaptation field that is too long. -/
theorem C06_panics {r : List Bool} {pos : Nat} {stop : Err} {later : List (List Bool × Err)}
    (p0 : Packet) (h : Hdr) (a : AF) (hh : h.WF) (ha : a.Fields) (hp : a.Plain)
    (hlen : 183 < a.len) (hlen' : a.len < 256) (h8 : pos % 8 = 0) :
    (Packet.next ⟨p0, ⟨encHdr h 3 ++ (encAF a ++ r), pos, stop, later⟩⟩).1 = .panic := by
  obtain ⟨w1, w2, w3⟩ := hh
  have w2' : h.tsc < 2 ^ 2 := w2
  have w3' : h.cc < 2 ^ 4 := w3
  have e : encHdr h 3 ++ (encAF a ++ r) = bitsOf 8 0x47 ++ (hdrTail h 3 ++ (encAF a ++ r)) := by
    simp [encHdr, hdrTail]
  have hs : sub32 maxPayloadSize (a.len + 1) > maxPayloadSize := by
    simp only [sub32, maxPayloadSize]; omega
  rw [next_eq, e]
  simp only [Go.bind_apply, St.lift, sync_enc h8, afterSync, hdrTail, List.cons_append, List.append_assoc,
    readInto, BR.read1_cons, BR.read_bitsOf, Go.modify_apply]
  simp [readAdaptation, Go.bind_apply, newAdaptationField_enc a ha hp hlen', readPayload, hs]

/-- C06 is false: a concrete stream on which `NewPacket` panics. -/
theorem C06_false : ∃ bs : List UInt8, (newPacket (BR.ofBytes bs)).1 = .panic :=
  ⟨0x47 :: 0 :: 0 :: 0x30 :: 184 :: List.replicate 184 0, by decide +kernel⟩

/-- **C07** (partial: the full claim is false, see `C07_false`).  After `NewPacket` on a packet without
payload the packet has no payload bytes; on a reused `Packet` the previous payload is kept. -/
theorem C07_no_payload_partial (p0 q : Packet) (s s' : BR)
    (h : Packet.next ⟨p0, s⟩ = (.ok (), ⟨q, s'⟩))
    (hc : q.adaptationFieldControl = 0 ∨ q.adaptationFieldControl = 2) :
    q.payload = p0.payload ∧ (p0 = Packet.new → q.payload = []) := by
  have key : q.payload = p0.payload := by
    rw [next_eq] at h
    obtain ⟨_, s1, h1, h⟩ := Go.bind_eq_ok h
    obtain ⟨k1, k2⟩ := lift_inv h1
    simp only at k2
    obtain ⟨l, b, t, e, hlt, hcase⟩ := afterSync_inv h
    simp only at hcase hlt
    rcases hcase with ⟨a, _, hp⟩ | ⟨a, hp, t1⟩ | ⟨af, len, a, hn, ha, hp⟩ | ⟨af, len, b', a, hn, ha, hle, hp, t1⟩
    · rw [hp, k2]
    · omega
    · rw [hp, k2]
    · omega
  exact ⟨key, fun h => by rw [key, h]; rfl⟩

/-- C07 is false for a reused packet: every payload-less packet read into a packet that held a
payload reports that old payload. -/
theorem C07_false (p0 : Packet) (h : Hdr) (a : Option AF) (hw : Pkt.WF ⟨h, .af a⟩) (hp : plain? a)
    (hne : p0.payload ≠ []) :
    ∃ q s', Packet.next ⟨p0, BR.ofBits (encPkt ⟨h, .af a⟩)⟩ = (.ok (), ⟨q, s'⟩) ∧
      q.adaptationFieldControl = 2 ∧ q.payload = p0.payload ∧ q.payload ≠ [] := by
  obtain ⟨q, h1, h2, h3, _⟩ :=
    C02_adaptation_roundtrip (r := []) (pos := 0) (stop := .eof) (later := []) p0 ⟨h, .af a⟩ hw hp rfl
  rw [List.append_nil] at h1
  exact ⟨q, _, h1, h2.2.2.2.2.2.1, h3, by rw [h3]; exact hne⟩

example : ∃ a : AF, Pkt.WF ⟨hdr0, .af (some a)⟩ ∧ plain? (some a) :=
  ⟨{ discontinuity := false, randomAccess := false, esPriority := false, pcr := none, opcr := none,
     spliceCountdown := none, priv := none, ext := none, stuffing := List.replicate 182 255 },
    ⟨hdr0_wf, by simp only [Body.WF, wf?, AF.WF, AF.Fields, AF.len, len?, optLen, List.length_replicate]; simp⟩,
    by simp [plain?, AF.Plain]⟩

/-- **C08.** PCR and OPCR are `base * 300 + extension`, without overflow, for every clock value, in
every adaptation field that C02 covers, each of them with or without the other; without a PCR 0 is reported. -/
theorem C08_pcr {r : List Bool} {pos : Nat} {stop : Err} {later : List (List Bool × Err)}
    (a : AF) (ha : a.WF) (hp : a.Plain) :
    ∃ af s', newAdaptationField ⟨encAF a ++ r, pos, stop, later⟩ = (.ok (af, a.len), s') ∧
      (∀ c, a.pcr = some c → af.pcr = c.base * 300 + c.ext ∧ c.base * 300 + c.ext < 2 ^ 64) ∧
      (∀ c, a.opcr = some c → af.opcr = c.base * 300 + c.ext ∧ c.base * 300 + c.ext < 2 ^ 64) ∧
      (a.pcr = none → af.pcr = 0) ∧ (a.opcr = none → af.opcr = 0) := by
  have := ha.2
  refine ⟨_, _, newAdaptationField_enc a ha.1 hp (by omega), fun c hc => ⟨?_, ?_⟩, fun c hc => ⟨?_, ?_⟩, fun hc => ?_, fun hc => ?_⟩
  · simp [viewAF, viewClock, hc]
  · have w := ha.1.1 c hc
    have := w.1; have := w.2; omega
  · simp [viewAF, viewClock, hc]
  · have w := ha.1.2.1 c hc
    have := w.1; have := w.2; omega
  · simp [viewAF, viewClock, hc]
  · simp [viewAF, viewClock, hc]

/-- Different clock values (with extension below 300) are reported differently. -/
theorem C08_pcr_injective (c c' : Clock) (h : c.ext < 300) (h' : c'.ext < 300)
    (he : c.base * 300 + c.ext = c'.base * 300 + c'.ext) : c.base = c'.base ∧ c.ext = c'.ext := by
  omega

example : ∃ a : AF, a.WF ∧ a.Plain ∧ a.pcr.isSome ∧ a.opcr.isSome :=
  ⟨{ af0 with opcr := some ⟨12345678, 0, 17⟩ }, by
    simp [AF.WF, AF.Fields, Clock.WF, af0, Ext.WF, AF.len, optLen, Ext.len, AF.Plain, Ext.Plain]⟩

/-- **C09** (partial: field values are right for every extension; consumption is exact only without
seamless splice data and reserved bytes).  For every encoded extension all fields are reported exactly;
the reader is left one bit before the end of the splice data, and reserved bytes stay unread. -/
theorem C09_extension_partial {r : List Bool} {pos : Nat} {stop : Err} {later : List (List Bool × Err)}
    (e : Ext) (hw : e.WF) (hl : e.len < 256) :
    ∃ s', newAdaptationExt ⟨encExt e ++ r, pos, stop, later⟩ = (.ok (viewExt e, e.len), s') ∧
      s'.pos + (if e.splice.isSome then 1 else 0) + 8 * e.reserved.length = pos + (encExt e).length ∧
      (e.Plain → s' = ⟨r, pos + (encExt e).length, stop, later⟩) := by
  refine ⟨_, newAdaptationExt_enc e hw hl, ?_, ?_⟩
  · simp only [length_encExt]
    have : (if e.splice.isSome then 5 else 0) + e.reserved.length ≤ e.len := by unfold Ext.len; omega
    have : (if e.splice.isSome then 1 else 0) ≤ (if e.splice.isSome then 5 else 0) := by split <;> omega
    omega
  · rintro ⟨h1, h2⟩
    simp [h1, h2, length_encExt]

example : ∃ e : Ext, e.WF ∧ e.len < 256 ∧ e.splice.isSome ∧ e.reserved ≠ [] :=
  ⟨⟨some (true, 32767), some (0, 2 ^ 22 - 1), some (15, 2 ^ 33 - 1, true, true, true), 31, [1]⟩,
    by simp [Ext.WF, Ext.len]⟩

/-- C09's "consumed exactly" is false for every extension with seamless splice data. -/
theorem C09_false {r : List Bool} {pos : Nat} {stop : Err} {later : List (List Bool × Err)}
    (e : Ext) (hw : e.WF) (hl : e.len < 256) (hs : e.splice.isSome) :
    (newAdaptationExt ⟨encExt e ++ r, pos, stop, later⟩).2.pos < pos + (encExt e).length := by
  obtain ⟨s', h1, h2, _⟩ := C09_extension_partial (r := r) (pos := pos) (stop := stop) (later := later) e hw hl
  rw [h1]
  simp [hs] at h2 ⊢
  omega

end Mpeg.TS
