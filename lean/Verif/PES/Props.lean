/-
Properties C21 - C27 of the PES layer.
-/
import Verif.PES.BodyLemmas
import Verif.TS.DeliverLemmas
set_option linter.all false
namespace Mpeg.PES
open Spec
open Mpeg.TS (sub32)

/-! ### what it means that a parsed header reports an encoded one -/

/-- the time stamps announced by the flags; a stamp that is not present is reported as 0 -/
def ptsOf : Stamps → Nat
  | .pts p => p.value
  | .ptsDts p _ => p.value
  | _ => 0
def dtsOf : Stamps → Nat
  | .ptsDts _ d => d.value
  | _ => 0

/-- The header extension `x` reports exactly `e`. -/
def ReportsExt (x : Extension) (e : Ext) : Prop :=
  x.privateDataFlag = e.priv.isSome ∧ x.packHeaderFieldFlag = false ∧
  x.programPacketSequenceCounterFlag = false ∧ x.pStdBufferFlag = e.pstd.isSome ∧
  x.extensionFlag2 = false ∧ (∀ d, e.priv = some d → x.privateData = d) ∧
  (∀ m sc sz, e.pstd = some (m, sc, sz) → x.pStdBuffer = some ⟨sc, sz⟩) ∧
  (e.pstd = none → x.pStdBuffer = none)

/-- The parsed header `x` reports exactly the encoded header `h`, apart from the time stamps. -/
def ReportsRest (x : Header) (h : Hdr) : Prop :=
  x.scramblingControl = h.scrambling ∧ x.priority = h.priority ∧
  x.dataAlignmentIndicator = h.alignment ∧ x.copyright = h.copyright ∧ x.originalOrCopy = h.original ∧
  x.ptsDtsFlags = h.stamps.flags ∧ x.escrFlag = false ∧ x.esRateFlag = false ∧
  x.dsmTrickModeFlag = false ∧ x.additionalCopyInfoFlag = false ∧ x.crcFlag = false ∧
  x.extensionFlag = h.ext.isSome ∧ x.headerDataLength = h.dataLen ∧
  (h.ext = none → x.extension = none) ∧
  (∀ e, h.ext = some e → ∃ y, x.extension = some y ∧ ReportsExt y e)

/-- The parsed header `x` reports exactly the encoded header `h`. -/
def Reports (x : Header) (h : Hdr) : Prop :=
  ReportsRest x h ∧ x.presentationTimeStamp = ptsOf h.stamps ∧ x.decodingTimeStamp = dtsOf h.stamps

theorem viewExt_reports (e : Ext) : ReportsExt (viewExt e) e := by
  refine ⟨rfl, rfl, rfl, rfl, rfl, ?_, ?_, ?_⟩
  · intro d h; simp [viewExt, h]
  · intro m sc sz h; simp [viewExt, h]
  · intro h; simp [viewExt, h]

theorem viewHdr_reports (h : Hdr) : ReportsRest (viewHdr h) h := by
  refine ⟨rfl, rfl, rfl, rfl, rfl, rfl, rfl, rfl, rfl, rfl, rfl, rfl, rfl, ?_, ?_⟩
  · intro e; simp [viewHdr, e]
  · intro e he; exact ⟨viewExt e, by simp [viewHdr, he], viewExt_reports e⟩

theorem viewPts_eq (t : Stamps) : viewPts t = ptsOf t % 2 ^ 32 := by
  cases t <;> rfl
theorem viewDts_eq (t : Stamps) : viewDts t = dtsOf t % 2 ^ 32 := by
  cases t <;> rfl

/-! ### a non-trivial example -/

/-- a header with PTS and DTS, private data, P-STD buffer and two stuffing bytes -/
def exHdr : Hdr :=
  { scrambling := 1, priority := true, original := true,
    stamps := .ptsDts ⟨3, 0x123456789 % 2 ^ 32, true, true, true⟩ ⟨1, 5, true, true, true⟩,
    ext := some ⟨some (List.replicate 16 7), 5, some (1, 1, 1234)⟩, stuffing := [255, 255] }

theorem exHdr_wf : exHdr.WF ∧ exHdr.defect = none := by decide +kernel

section
variable {r : List Bool} {pos : Nat} {stop : Err} {later : List (List Bool × Err)}

/-! ### C21, C22 -/

/-- **C21** (partial: the full claim is false because of the time stamps, see `C22_false`; here they are
below 2^32).  `Packet.Next` on an encoded packet, whatever the `Packet` held before, reports exactly the
encoded stream id, length, header and payload and leaves the reader at the following data. -/
theorem C21_round_trip_partial (p : Packet) (id : Nat) (h : Hdr) (d : List UInt8) (hid : id < 256)
    (hh : id ∉ noHeaderIds) (hw : h.WF) (hd : h.defect = none) (hl : 3 + h.dataLen + d.length < 65536)
    (hp : ptsOf h.stamps < 2 ^ 32) (ht : dtsOf h.stamps < 2 ^ 32) :
    ∃ x, Packet.next ⟨p, ⟨encPacket id h d ++ r, pos, stop, later⟩⟩ =
      (.ok (), ⟨⟨id, 3 + h.dataLen + d.length, some x, d⟩,
        ⟨r, pos + (encPacket id h d).length, stop, later⟩⟩) ∧ Reports x h := by
  have hh' : hasPESHeader id = true := by
    simp [noHeaderIds] at hh; simp [hasPESHeader, hh]
  have hlen : (encPacket id h d).length = 8 * (9 + h.dataLen + d.length) := by
    have := length_hdrBits h h.dataLen hw.2.2.2.1
    simp only [List.length_append, length_bitsOf] at this
    simp only [length_bitsOfBytes] at this
    simp only [encPacket, encHdr, encFixed, encStart, List.length_append, length_bitsOf, length_bitsOfBytes]
    simp only [List.length_cons, List.length_nil] at this ⊢
    omega
  refine ⟨viewHdr h, ?_, viewHdr_reports h, ?_, ?_⟩
  · rw [hlen]; exact next_packet p id h d hid hh' hw hd hl
  · show viewPts h.stamps = _; rw [viewPts_eq, Nat.mod_eq_of_lt hp]
  · show viewDts h.stamps = _; rw [viewDts_eq, Nat.mod_eq_of_lt ht]

example : exHdr.WF ∧ exHdr.defect = none ∧ 0xe0 ∉ noHeaderIds ∧
    3 + exHdr.dataLen + ([1, 2, 3] : List UInt8).length < 65536 ∧ ptsOf exHdr.stamps < 2 ^ 32 ∧
    dtsOf exHdr.stamps < 2 ^ 32 := by decide +kernel

/-- **C22** (partial: the full claim is false, see `C22_false`).  The reported time stamps are the encoded
33-bit values modulo 2^32, for every header that announces them; so they are exact below 2^32. -/
theorem C22_time_stamps_partial (p : Packet) (id : Nat) (h : Hdr) (d : List UInt8) (hid : id < 256)
    (hh : id ∉ noHeaderIds) (hw : h.WF) (hd : h.defect = none) (hl : 3 + h.dataLen + d.length < 65536) :
    ∃ x, (Packet.next ⟨p, ⟨encPacket id h d ++ r, pos, stop, later⟩⟩).2.pkt.header = some x ∧
      ReportsRest x h ∧
      x.presentationTimeStamp = ptsOf h.stamps % 2 ^ 32 ∧ x.decodingTimeStamp = dtsOf h.stamps % 2 ^ 32 ∧
      (ptsOf h.stamps < 2 ^ 32 → x.presentationTimeStamp = ptsOf h.stamps) ∧
      (dtsOf h.stamps < 2 ^ 32 → x.decodingTimeStamp = dtsOf h.stamps) := by
  have hh' : hasPESHeader id = true := by
    simp [noHeaderIds] at hh; simp [hasPESHeader, hh]
  refine ⟨viewHdr h, by rw [next_packet p id h d hid hh' hw hd hl], viewHdr_reports h,
    viewPts_eq _, viewDts_eq _, fun hlt => ?_, fun hlt => ?_⟩
  · show viewPts h.stamps = _; rw [viewPts_eq, Nat.mod_eq_of_lt hlt]
  · show viewDts h.stamps = _; rw [viewDts_eq, Nat.mod_eq_of_lt hlt]

/-- C22 as stated is false: for every PTS with bit 32 set the reported value is wrong. -/
theorem C22_false (p : Packet) (id v : Nat) (d : List UInt8) (hid : id < 256) (hh : id ∉ noHeaderIds)
    (hv : 2 ^ 32 ≤ v) (hv' : v < 2 ^ 33) (hl : 8 + d.length < 65536) :
    let h : Hdr := { stamps := .pts ⟨2, v, true, true, true⟩ }
    ∃ x, (Packet.next ⟨p, ⟨encPacket id h d ++ r, pos, stop, later⟩⟩).2.pkt.header = some x ∧
      x.presentationTimeStamp ≠ v := by
  intro h
  have hw : h.WF := ⟨(by show 2 < 4; decide), (by show 0 < 4; decide), ⟨(by show 2 < 16; decide), hv'⟩,
    (fun e he => by cases he), (by show 5 + 0 + 0 < 256; decide)⟩
  have hd : h.defect = none := by simp [h, Hdr.defect, Stamps.good, Stamp.good]
  obtain ⟨x, h1, _, h2, _⟩ := C22_time_stamps_partial (r := r) (pos := pos) (stop := stop) (later := later)
    p id h d hid hh hw hd (by show 3 + (5 + 0 + 0) + d.length < 65536; omega)
  refine ⟨x, h1, ?_⟩
  rw [h2]
  show v % 2 ^ 32 ≠ v
  omega

/-! ### C23 -/

/-- **C23.** A packet with PES_packet_length 0 takes all remaining bytes of its unit as payload, without
error, whether the unit ends with `io.EOF` or `ts.EOP`; the reader is then at the next unit. -/
theorem C23_unbounded (p : Packet) (id : Nat) (h : Hdr) (d : List UInt8) (hid : id < 256)
    (hh : id ∉ noHeaderIds) (hw : h.WF) (hd : h.defect = none) (hs : stop = .eof ∨ stop = .eop) :
    ∃ x b, Packet.next ⟨p, ⟨encUnbounded id h d, pos, stop, later⟩⟩ = (.ok (), ⟨⟨id, 0, some x, d⟩, b⟩) ∧
      ReportsRest x h ∧
      (∀ u e l, later = (u, e) :: l → b.bits = u ∧ b.stop = e ∧ b.later = l) ∧
      (later = [] → b.bits = [] ∧ b.stop = stop ∧ b.later = []) := by
  have hh' : hasPESHeader id = true := by
    simp [noHeaderIds] at hh; simp [hasPESHeader, hh]
  refine ⟨viewHdr h, _, next_unbounded p id h d hid hh' hw hd hs, viewHdr_reports h, ?_, ?_⟩
  · rintro u e l rfl; simp [BR.failTo]
  · rintro rfl; simp [BR.failTo]

example : exHdr.WF ∧ exHdr.defect = none ∧ 0xe0 ∉ noHeaderIds := by decide +kernel

/-! ### C25, C27 -/

/-- **C25.** A header with a defect is rejected with the error of its first defect, which is
`ErrMarkerNotFound` or `ErrInvalidStuffingByte`. -/
theorem C25_rejected (p : Packet) (id len : Nat) (h : Hdr) (e : Err) (hid : id < 256) (hlen : len < 65536)
    (hh : id ∉ noHeaderIds) (hw : h.WF) (hd : h.defect = some e) :
    (Packet.next ⟨p, ⟨encStart id len ++ (encHdr h ++ r), pos, stop, later⟩⟩).1 = .err e ∧
      (e = .markerNotFound ∨ e = .invalidStuffingByte) := by
  have hh' : hasPESHeader id = true := by
    simp [noHeaderIds] at hh; simp [hasPESHeader, hh]
  constructor
  · rw [next_start p id len hid hlen]
    have hb := readHeader_bad (r := r) (pos := pos + 48) (stop := stop) (later := later) h hw e hd
    simp only [Packet.body, hh', Go.ite_apply, ↓reduceIte]
    apply bind_fst_err
    unfold headerInto
    cases hm : readHeader ⟨encHdr h ++ r, pos + 48, stop, later⟩ with
    | mk x y => rw [hm] at hb; simp only at hb; subst hb; rfl
  · unfold Hdr.defect at hd
    repeat' split at hd
    all_goals first
      | (obtain rfl := Option.some.inj hd; simp)
      | simp at hd

/-- a header whose DTS misses its last marker bit -/
def exBad : Hdr := { exHdr with stamps := .ptsDts ⟨3, 7, true, true, true⟩ ⟨1, 5, true, true, false⟩ }
example : exBad.WF ∧ exBad.defect = some .markerNotFound := by decide +kernel
example : ({ exHdr with stuffing := [255, 254] } : Hdr).WF ∧
    ({ exHdr with stuffing := [255, 254] } : Hdr).defect = some .invalidStuffingByte := by decide +kernel

/-- **C25**, the other direction, for every input: if `Next` accepts a packet of a stream id with header,
what it has read starts with the `10` marker, time stamps with the right prefixes and marker bits, an
extension with the right marker, and stuffing bytes that are all 0xFF (`defect = none`). -/
theorem C25_accepted (s s' : St) (hok : Packet.next s = (.ok (), s'))
    (hh : s'.pkt.streamID ∉ noHeaderIds) :
    ∃ (h : Hdr) (hdl : Nat) (rest : List Bool), h.mark = 2 ∧ h.defect = none ∧
      s.br.bits = encStart s'.pkt.streamID s'.pkt.packetLength ++ (bitsOf 2 2 ++ bitsOf 2 h.scrambling ++
        [h.priority, h.alignment, h.copyright, h.original] ++ bitsOf 2 h.stamps.flags ++
        [false, false, false, false, false, h.ext.isSome] ++ bitsOf 8 hdl ++ encStamps h.stamps ++
        encOptExt h.ext ++ bitsOfBytes h.stuffing) ++ rest := by
  obtain ⟨id, len, b, hid, hlen, t, hb⟩ := next_inv hok
  obtain ⟨e1, e2, e3⟩ := body_inv hb
  obtain rfl : s'.pkt.streamID = id := e1
  obtain rfl : s'.pkt.packetLength = len := e2
  have hh' : hasPESHeader s'.pkt.streamID = true := by
    simp [noHeaderIds] at hh; simp [hasPESHeader, hh]
  obtain ⟨x, n, y, hm, _, _⟩ := e3 hh'
  obtain ⟨h, hdl, e1, _, _, _, e2, _, _, _, _, tk⟩ := readHeader_inv hm
  refine ⟨h, hdl, y.bits, e1, e2, ?_⟩
  have := tk.bits
  rw [t.bits]
  simp only at this
  rw [this]
  simp only [List.append_assoc]

example : ∃ s', Packet.next ⟨{}, ⟨encPacket 0xe0 exHdr [1, 2, 3] ++ [], 0, .eof, []⟩⟩ = (.ok (), s') ∧
    s'.pkt.streamID ∉ noHeaderIds :=
  ⟨_, next_packet {} 0xe0 exHdr [1, 2, 3] (by decide) (by decide) exHdr_wf.1 exHdr_wf.2 (by decide +kernel),
    by decide⟩

/-- **C27.** The optional header is parsed exactly for the stream ids that are not among the eight excluded
ones: for the others every well-formed header that follows is reported and every defective one rejected;
for the excluded ones header and payload of the packet are left as they were, whatever follows. -/
theorem C27_header_ids (p : Packet) (id len : Nat) (hid : id < 256) (hlen : len < 65536) :
    (id ∉ noHeaderIds →
      (∀ h : Hdr, h.WF → h.defect = none → ∃ x,
        (Packet.next ⟨p, ⟨encStart id len ++ (encHdr h ++ r), pos, stop, later⟩⟩).2.pkt.header = some x ∧
          ReportsRest x h) ∧
      (∀ (h : Hdr) e, h.WF → h.defect = some e →
        (Packet.next ⟨p, ⟨encStart id len ++ (encHdr h ++ r), pos, stop, later⟩⟩).1 = .err e)) ∧
    (id ∈ noHeaderIds →
      (Packet.next ⟨p, ⟨encStart id len ++ r, pos, stop, later⟩⟩).2.pkt =
        { p with streamID := id, packetLength := len } ∧
      ((Packet.next ⟨p, ⟨encStart id len ++ r, pos, stop, later⟩⟩).1 = .ok () ∨
        (Packet.next ⟨p, ⟨encStart id len ++ r, pos, stop, later⟩⟩).1 = .err stop ∨
        (Packet.next ⟨p, ⟨encStart id len ++ r, pos, stop, later⟩⟩).1 = .err .unexpectedEOF)) := by
  refine ⟨fun hh => ⟨fun h hw hd => ?_, fun h e hw hd => ?_⟩, fun hh => ?_⟩
  · have hh' : hasPESHeader id = true := by
      simp [noHeaderIds] at hh; simp [hasPESHeader, hh]
    refine ⟨viewHdr h, ?_, viewHdr_reports h⟩
    rw [next_start p id len hid hlen]
    simp only [Packet.body, hh', Go.ite_apply, ↓reduceIte]
    rw [Go.bind_ok (headerInto_enc _ h hw hd)]
    exact (rest_pkt _ _ _).2.2
  · exact (C25_rejected p id len h e hid hlen hh hw hd).1
  · have hh' : hasPESHeader id = false := by
      simp [noHeaderIds] at hh
      rcases hh with h | h | h | h | h | h | h | h <;> subst h <;> rfl
    rw [next_start p id len hid hlen]
    refine ⟨next_body_pkt hh' _, ?_⟩
    by_cases hp : id = paddingStream
    · have hb := fun e y => @readExact_err len ⟨r, pos + 48, stop, later⟩ y e
      unfold Packet.body
      rw [if_neg (by simp [hh']), if_pos hp, Go.bind_apply]
      unfold St.lift
      cases hr : readExact len ⟨r, pos + 48, stop, later⟩ with
      | mk x y =>
        cases x with
        | err e => exact .inr ((hb e y hr).imp (fun h => by rw [h]) (fun h => by rw [h]))
        | ok a => exact .inl rfl
        | panic => exact absurd (congrArg Prod.fst hr) (safe_readExact len _).1
        | hang => exact absurd (congrArg Prod.fst hr) (safe_readExact len _).2
    · unfold Packet.body
      rw [if_neg (by simp [hh']), if_neg hp]
      exact .inl rfl

end

/-! ### C24 -/

theorem hasHeader_of {id : Nat} (hh : id ∉ noHeaderIds) : hasPESHeader id = true := by
  simp [noHeaderIds] at hh; simp [hasPESHeader, hh]

/-- **C24**, for every input: a successful `Next` with a non-zero PES_packet_length `L` (stream id with
header, or padding) consumes a whole number of bytes that is `6 + L` modulo 2^32. -/
theorem C24_consumed_mod (s s' : St) (hok : Packet.next s = (.ok (), s'))
    (hid : s'.pkt.streamID ∉ noHeaderIds ∨ s'.pkt.streamID = 0xbe) (hL : s'.pkt.packetLength ≠ 0) :
    ∃ l n, BR.Took s.br l s'.br ∧ l.length = 8 * n ∧ n % 2 ^ 32 = 6 + s'.pkt.packetLength := by
  obtain ⟨id, len, b, hi, hlen, t, hb⟩ := next_inv hok
  obtain ⟨e1, e2, e3⟩ := body_inv hb
  obtain rfl : s'.pkt.streamID = id := e1
  obtain rfl : s'.pkt.packetLength = len := e2
  have hst : (encStart s'.pkt.streamID s'.pkt.packetLength).length = 48 := by simp [encStart]
  rcases hid with hid | hid
  · obtain ⟨x, n, y, hm, _, hp⟩ := e3 (hasHeader_of hid)
    obtain ⟨l1, k, t1, hl1, rfl⟩ := hdr_took hm
    rw [if_pos (by omega)] at hp
    obtain ⟨l2, t2, hl2, _⟩ := bounded_took hp
    refine ⟨_, 6 + k + sub32 s'.pkt.packetLength (k % 2 ^ 32), (t.trans t1).trans t2, ?_, ?_⟩
    · simp only [List.length_append, hst, hl1, hl2]; omega
    · unfold sub32; omega
  · unfold Packet.body at hb
    rw [if_neg (by rw [hid]; decide), if_pos hid] at hb
    obtain ⟨x, s1, h1, h2⟩ := Go.bind_eq_ok hb
    cases h2
    obtain ⟨h3, _⟩ := lift_inv h1
    obtain ⟨t1, hl⟩ := readExact_inv h3
    refine ⟨_, 6 + s'.pkt.packetLength, t.trans t1, ?_, by omega⟩
    simp only [List.length_append, hst, length_bitsOfBytes, hl]; omega

/-- **C24** (partial: inputs below 4 GiB; without that bound the claim is false, see `C24_false`).  A
successful `Next` with a non-zero PES_packet_length `L` (stream id with header, or padding) consumes
exactly `6 + L` bytes. -/
theorem C24_consumed_partial (s s' : St) (hok : Packet.next s = (.ok (), s'))
    (hid : s'.pkt.streamID ∉ noHeaderIds ∨ s'.pkt.streamID = 0xbe) (hL : s'.pkt.packetLength ≠ 0)
    (hs : s.br.bits.length < 8 * 2 ^ 32) :
    ∃ l, BR.Took s.br l s'.br ∧ l.length = 8 * (6 + s'.pkt.packetLength) := by
  obtain ⟨l, n, t, hl, hn⟩ := C24_consumed_mod s s' hok hid hL
  have h1 := congrArg List.length t.bits
  rw [List.length_append] at h1
  have : n < 2 ^ 32 := by omega
  rw [Nat.mod_eq_of_lt this] at hn
  exact ⟨l, t, by omega⟩

example : ∃ s', Packet.next ⟨{}, ⟨encPacket 0xe0 exHdr [1, 2, 3] ++ [true], 0, .eof, []⟩⟩ = (.ok (), s') ∧
    (s'.pkt.streamID ∉ noHeaderIds ∨ s'.pkt.streamID = 0xbe) ∧ s'.pkt.packetLength ≠ 0 ∧
    (encPacket 0xe0 exHdr [1, 2, 3] ++ [true]).length < 8 * 2 ^ 32 :=
  ⟨_, next_packet {} 0xe0 exHdr [1, 2, 3] (by decide) (by decide) exHdr_wf.1 exHdr_wf.2 (by decide +kernel),
    by decide +kernel⟩

/-- C24 as stated is false: a packet with PES_packet_length 3 whose PES_header_data_length (0) is smaller
than the PTS its flags announce makes `Next` swallow 4 GiB of 0xFF bytes as stuffing, successfully. -/
theorem C24_false : ∃ s s' : St, Packet.next s = (.ok (), s') ∧ s'.pkt.streamID = 0xe0 ∧
    s'.pkt.packetLength = 3 ∧ s'.br.pos = s.br.pos + 8 * (6 + 3 + 2 ^ 32) := by
  obtain ⟨st, hst⟩ : ∃ st : List UInt8, st = List.replicate (sub32 0 5) 255 := ⟨_, rfl⟩
  have h1 : st.length = sub32 0 5 := by rw [hst, List.length_replicate]
  have h2 : st.all (· == 255) = true := by
    rw [hst, List.all_replicate]; simp
  obtain ⟨x, hx⟩ := readHeader_wrap (r := []) (pos := 48) (stop := .eof) (later := [])
    ⟨2, 0, true, true, true⟩ st (by decide) (by decide) h1 h2
  have h3 : st.length = 2 ^ 32 - 5 := h1
  clear hst
  generalize bitsOf 2 2 ++ _ = bits at hx
  refine ⟨⟨{}, ⟨encStart 0xe0 3 ++ bits, 0, .eof, []⟩⟩, ⟨⟨0xe0, 3, some x, []⟩, ⟨[], 8 * (6 + 3 + 2 ^ 32), .eof, []⟩⟩,
    ?_, rfl, rfl, by simp⟩
  rw [next_start {} 0xe0 3 (by decide) (by decide)]
  have hh : headerInto ⟨{ streamID := 0xe0, packetLength := 3 }, ⟨bits, 0 + 48, .eof, []⟩⟩ =
      (.ok ((8 + st.length) % 2 ^ 32), ⟨{ streamID := 0xe0, packetLength := 3, header := some x },
        ⟨[], 48 + 8 * (8 + st.length), .eof, []⟩⟩) := by
    unfold headerInto
    simp only [Nat.zero_add]
    rw [hx]
  unfold Packet.body
  rw [if_pos (by decide), Go.bind_ok hh, if_pos (by decide)]
  have e : (8 + st.length) % 2 ^ 32 = 3 := by omega
  rw [e, show sub32 3 3 = 0 from rfl]
  have := boundedPayload_enc (r := []) (pos := 48 + 8 * (8 + st.length)) (stop := .eof) (later := [])
    { streamID := 0xe0, packetLength := 3, header := some x } []
  simp only [List.length_nil, bitsOfBytes_nil, List.nil_append] at this
  rw [this]
  simp only [Prod.mk.injEq, St.mk.injEq, BR.mk.injEq, true_and, and_true]
  omega

/-! ### C26 -/

/-- **C26**, for every source: let successive calls of `Next` yield the packets `ps` up to a first `EOP` or
final error, then `pss` (one list per `EOP`), then the error `e`.  Then every sequence of Reads of the
payload reader delivers exactly the payloads `Next` has put into the packet after each call, in order,
stopping short only at an `EOP` and at the final error, which it reports. -/
theorem C26_every_source (br : BR) (ps : List Packet) (pss : List (List Packet)) (e : Err)
    (h : Parts ⟨{}, br⟩ (ps :: pss) e) (ns : List Nat) (fuel : Nat) (hf : ps.length + total pss < fuel) :
    ∃ r', PR.reads fuel ns (PR.new br) = (.ok (deliverParts e (payloads ps) (pss.map payloads) ns), r') := by
  have := reads_parts ns (PR.new br) ps pss e fuel ?_ hf
  · simpa [content, PR.new] using this
  · cases h with
    | last h1 h2 h3 => exact ⟨_, h1, .inl ⟨rfl, h3, _, h2⟩⟩
    | part h1 h2 h3 => exact ⟨_, h1, .inr ⟨_, (by cases h3 <;> simp), h2, h3⟩⟩

/-- A packet as the payload reader may meet it. -/
inductive Item where
  | media (id : Nat) (h : Hdr) (d : List UInt8)
  | padding (d : List UInt8)

def Item.WF : Item → Prop
  | .media id h d => id < 256 ∧ id ∉ noHeaderIds ∧ h.WF ∧ h.defect = none ∧ 3 + h.dataLen + d.length < 65536
  | .padding d => d.length < 65536

def Item.enc : Item → List Bool
  | .media id h d => encPacket id h d
  | .padding d => encPadding d

/-- the payload of a packet: nothing for padding -/
def Item.payload : Item → List UInt8
  | .media _ _ d => d
  | .padding _ => []

/-- what is found in `Packet.Payload` after each call: padding leaves what was there -/
def seen (prev : List UInt8) : List Item → List (List UInt8)
  | [] => []
  | .media _ _ d :: l => d :: seen d l
  | .padding _ :: l => prev :: seen prev l

theorem run_items (stop : Err) : ∀ (l : List Item) (p : Packet) (pos : Nat), (∀ i ∈ l, i.WF) →
    ∃ ps p' pos', Run ⟨p, ⟨(l.map Item.enc).flatten, pos, stop, []⟩⟩ ps ⟨p', ⟨[], pos', stop, []⟩⟩ ∧
      ps.map Packet.payload = seen p.payload l
  | [], p, pos, _ => ⟨[], p, pos, .nil _, rfl⟩
  | .media id h d :: l, p, pos, hw => by
    obtain ⟨h1, h2, h3, h4, h5⟩ := hw _ (List.mem_cons_self ..)
    have hn := next_packet (r := (l.map Item.enc).flatten) (pos := pos) (stop := stop) (later := [])
      p id h d h1 (hasHeader_of h2) h3 h4 h5
    obtain ⟨ps, p', pos', hr, he⟩ := run_items stop l ⟨id, 3 + h.dataLen + d.length, some (viewHdr h), d⟩
      (pos + 8 * (9 + h.dataLen + d.length)) (fun i hi => hw i (List.mem_cons_of_mem _ hi))
    exact ⟨_, p', pos', .cons hn hr, by simp [seen, he]⟩
  | .padding d :: l, p, pos, hw => by
    have h1 : d.length < 65536 := hw _ (List.mem_cons_self ..)
    have hn := next_padding (r := (l.map Item.enc).flatten) (pos := pos) (stop := stop) (later := []) p d h1
    obtain ⟨ps, p', pos', hr, he⟩ := run_items stop l { p with streamID := 0xbe, packetLength := d.length }
      (pos + 8 * (6 + d.length)) (fun i hi => hw i (List.mem_cons_of_mem _ hi))
    exact ⟨_, p', pos', .cons hn hr, by simp [seen, he]⟩

theorem deliverParts_nil (e : Err) : ∀ (ns : List Nat) (c : List UInt8),
    deliverParts e c [] ns = TS.Spec.deliver c e ns
  | [], c => by simp [deliverParts, TS.Spec.deliver]
  | n :: ns, c => by
    unfold deliverParts TS.Spec.deliver
    simp only [deliverParts_nil e ns]

/-- **C26** for well-formed streams of packets with headers and padding packets, for all read sizes: the
reader delivers, without gaps, the payloads that `seen` lists (each padding packet repeats the previous
payload), and `io.EOF` exactly when they are exhausted. -/
theorem C26_stream_exact (l : List Item) (hw : ∀ i ∈ l, i.WF) (ns : List Nat) (fuel : Nat)
    (hf : 48 * fuel > 48 + ((l.map Item.enc).flatten).length) :
    ∃ r', PR.reads fuel ns (PR.new (BR.ofBits (l.map Item.enc).flatten)) =
      (.ok (TS.Spec.deliver (seen [] l).flatten .eof ns), r') := by
  obtain ⟨ps, p', pos', hr, he⟩ := run_items .eof l {} 0 hw
  have hlen := hr.length_le
  simp only [St.size, BR.size, List.map_nil, List.sum_nil] at hlen
  obtain ⟨r', h⟩ := C26_every_source (BR.ofBits (l.map Item.enc).flatten) ps [] .eof
    (.last hr (next_end p' pos' .eof) (by decide)) ns fuel (by simp only [total, List.map_nil, List.sum_nil]; omega)
  refine ⟨r', ?_⟩
  rw [h, List.map_nil, deliverParts_nil]
  rw [payloads, he]

/-- **C26** (partial: no padding packet after a payload; with one the claim is false, see `C26_false`).
The bytes delivered are the payloads of all packets, concatenated, with `io.EOF` exactly at their end. -/
theorem C26_stream_partial (l : List Item) (hw : ∀ i ∈ l, i.WF)
    (hm : ∀ a i b, l = a ++ i :: b → (∃ d, i = .padding d) → a.flatMap Item.payload = [])
    (ns : List Nat) (fuel : Nat) (hf : 48 * fuel > 48 + ((l.map Item.enc).flatten).length) :
    ∃ r', PR.reads fuel ns (PR.new (BR.ofBits (l.map Item.enc).flatten)) =
      (.ok (TS.Spec.deliver (l.flatMap Item.payload) .eof ns), r') := by
  have key : ∀ (l : List Item) (prev : List UInt8),
      (∀ a i b, l = a ++ i :: b → (∃ d, i = .padding d) → prev = [] ∧ a.flatMap Item.payload = []) →
      (seen prev l).flatten = l.flatMap Item.payload := by
    intro l
    induction l with
    | nil => intro prev _; rfl
    | cons i l ih =>
      intro prev hm
      cases i with
      | media id h d =>
        simp only [seen, List.flatten_cons, List.flatMap_cons, Item.payload]
        rw [ih d]
        intro a i b hab hi
        have := (hm (.media id h d :: a) i b (by rw [hab]; rfl) hi).2
        simp only [List.flatMap_cons, Item.payload, List.append_eq_nil_iff] at this
        exact this
      | padding d =>
        obtain ⟨h0, _⟩ := hm [] (.padding d) l rfl ⟨d, rfl⟩
        subst h0
        simp only [seen, List.flatten_cons, List.flatMap_cons, Item.payload, List.nil_append]
        rw [ih []]
        intro a i b hab hi
        have := (hm (.padding d :: a) i b (by rw [hab]; rfl) hi).2
        simp only [List.flatMap_cons, Item.payload, List.nil_append] at this
        exact ⟨rfl, this⟩
  obtain ⟨r', h⟩ := C26_stream_exact l hw ns fuel hf
  refine ⟨r', ?_⟩
  rw [h, key l [] fun a i b hab hi => ⟨rfl, hm a i b hab hi⟩]

/-- two media packets after a padding packet -/
def exItems : List Item := [.padding [255, 255], .media 0xe0 exHdr [1, 2, 3], .media 0xe0 {} [4, 5]]
example : (∀ i ∈ exItems, i.WF) ∧
    (∀ a i b, exItems = a ++ i :: b → (∃ d, i = .padding d) → a.flatMap Item.payload = []) ∧
    exItems.flatMap Item.payload = [1, 2, 3, 4, 5] := by
  refine ⟨?_, ?_, by decide +kernel⟩
  · intro i hi
    simp only [exItems, List.mem_cons, List.not_mem_nil, or_false] at hi
    rcases hi with rfl | rfl | rfl
    · show 2 < 65536; decide
    · exact ⟨by decide, by decide, exHdr_wf.1, exHdr_wf.2, by decide +kernel⟩
    · exact ⟨by decide, by decide, by decide +kernel, by decide +kernel, by decide +kernel⟩
  · rintro a i b h ⟨d, rfl⟩
    rcases a with _ | ⟨x, _ | ⟨y, _ | ⟨z, a⟩⟩⟩
    · rfl
    all_goals simp [exItems] at h

/-- C26 as stated is false: a padding packet makes the reader deliver the previous payload again. -/
theorem C26_false : ∃ (l : List Item) (n fuel : Nat), (∀ i ∈ l, i.WF) ∧
    48 * fuel > 48 + ((l.map Item.enc).flatten).length ∧ l.flatMap Item.payload = [7] ∧
    ∃ r', PR.reads fuel [n] (PR.new (BR.ofBits (l.map Item.enc).flatten)) = (.ok [([7, 7], none)], r') := by
  have hw : ∀ i ∈ [Item.media 0xe0 {} [7], .padding []], i.WF := by
    intro i hi
    simp only [List.mem_cons, List.not_mem_nil, or_false] at hi
    rcases hi with rfl | rfl
    · exact ⟨by decide, by decide, by decide +kernel, by decide +kernel, by decide +kernel⟩
    · show 0 < 65536; decide
  have hf : 48 * 10 > 48 + (([Item.media 0xe0 {} [7], .padding []].map Item.enc).flatten).length := by
    decide +kernel
  refine ⟨[.media 0xe0 {} [7], .padding []], 2, 10, hw, hf, rfl, ?_⟩
  obtain ⟨r', h⟩ := C26_stream_exact _ hw [2] 10 hf
  exact ⟨r', h⟩

/-! ### C62, C63 -/

/-- **C62** (partial): `Next` always returns or panics: it cannot loop. -/
theorem C62_returns (s : St) : (Packet.next s).1 ≠ .hang := next_nohang s

/-- **C62** (partial: the full claim is false, see `C62_panics`).  `Next` panics only on a packet of a
stream id with header that has one of the flags ESCR, ES_rate, DSM_trick_mode, additional_copy_info,
PES_CRC or PES_extension set. -/
theorem C62_panic_only_partial (s s' : St) (h : Packet.next s = (.panic, s')) :
    ∃ (id len sc pd : Nat) (b0 b1 b2 b3 f0 f1 f2 f3 f4 f5 : Bool) (rest : List Bool),
      id ∉ noHeaderIds ∧
      s.br.bits = encStart id len ++ (bitsOf 2 2 ++ (bitsOf 2 sc ++ ([b0, b1, b2, b3] ++ (bitsOf 2 pd ++
        ([f0, f1, f2, f3, f4, f5] ++ rest))))) ∧
      (f0 || f1 || f2 || f3 || f4 || f5) = true := by
  unfold Packet.next at h
  rcases bind_eq_panic h with h | ⟨_, s1, h1, h⟩
  · exact absurd (congrArg Prod.fst h) (safe_lift safe_prefix s).1
  rcases bind_eq_panic h with h | ⟨id, s2, h2, h⟩
  · exact absurd (congrArg Prod.fst h) (safe_readInto (BR.safe_read _) _ _ s1).1
  rcases bind_eq_panic h with h | ⟨len, s3, h3, h⟩
  · exact absurd (congrArg Prod.fst h) (safe_readInto (BR.safe_read _) _ _ s2).1
  have t1 := prefix_inv (lift_inv h1).1
  have t2 := (read_inv' (readInto_inv h2).1).1
  have t3 := (read_inv' (readInto_inv h3).1).1
  unfold Packet.body at h
  by_cases hh : hasPESHeader id = true
  · rw [if_pos hh] at h
    rcases bind_eq_panic h with h | ⟨n, s4, h4, h⟩
    · have hp : ∃ b, readHeader s3.br = (.panic, b) := by
        unfold headerInto at h
        cases hm : readHeader s3.br with
        | mk r b =>
          rw [hm] at h
          cases r with
          | panic => exact ⟨b, rfl⟩
          | ok a => cases h
          | err e => cases h
          | hang => cases h
      obtain ⟨b, hp⟩ := hp
      unfold readHeader at hp
      rcases bind_eq_panic hp with hp | ⟨_, s5, h5, hp⟩
      · exact absurd (congrArg Prod.fst hp) (safe_marker _ _ s3.br).1
      rcases bind_eq_panic hp with hp | ⟨x, s6, h6, hp⟩
      · exact absurd (congrArg Prod.fst hp) (safe_fixed s5).1
      have t5 := (marker_inv h5).1
      obtain ⟨_, _, _, _, _, _, t6⟩ := readFixed_inv h6
      refine ⟨id, len, x.scramblingControl, x.ptsDtsFlags, x.priority, x.dataAlignmentIndicator, x.copyright,
        x.originalOrCopy, x.escrFlag, x.esRateFlag, x.dsmTrickModeFlag, x.additionalCopyInfoFlag, x.crcFlag,
        x.extensionFlag, bitsOf 8 x.headerDataLength ++ s6.bits, ?_, ?_, ?_⟩
      · intro hc
        simp [noHeaderIds] at hc
        rcases hc with hc | hc | hc | hc | hc | hc | hc | hc <;> subst hc <;> exact absurd hh (by decide)
      · rw [t1.bits, t2.bits, t3.bits, t5.bits, t6.bits]
        simp only [encStart, List.append_assoc]
      · rcases bind_eq_panic hp with hp | ⟨y, s7, h7, hp⟩
        · exact absurd (congrArg Prod.fst hp) (safe_stamps _ s6).1
        cases hu : x.unsupported with
        | true =>
          simp only [Header.unsupported] at hu
          rw [hu]; rfl
        | false =>
          cases hx : x.extensionFlag with
          | true => simp
          | false =>
            exfalso
            simp only [hu, hx, Go.opt_false] at hp
            rcases bind_eq_panic hp with hp | ⟨_, s8, h8, hp⟩
            · cases hp
            rcases bind_eq_panic hp with hp | ⟨_, s9, h9, hp⟩
            · cases hp
            rcases bind_eq_panic hp with hp | ⟨_, s10, h10, hp⟩
            · exact absurd (congrArg Prod.fst hp) (safe_stuffing _ _).1
            · cases hp
    · split at h
      · exact absurd (congrArg Prod.fst h) (safe_bounded _ _).1
      · exact absurd (congrArg Prod.fst h) (safe_unbounded _).1
  · rw [if_neg hh] at h
    split at h
    · rcases bind_eq_panic h with h | ⟨_, s4, _, h⟩
      · exact absurd (congrArg Prod.fst h) (safe_lift (safe_readExact _) _).1
      · cases h
    · cases h

/-- C62 as stated is false: `Next` panics on every packet, otherwise well-formed, that has one of the first
five of these flags set. -/
theorem C62_panics {r : List Bool} {pos : Nat} {stop : Err} {later : List (List Bool × Err)}
    (p : Packet) (id len sc hdl : Nat) (b0 b1 b2 b3 f0 f1 f2 f3 f4 f5 : Bool) (t : Stamps)
    (hid : id < 256) (hlen : len < 65536) (hh : id ∉ noHeaderIds) (ht : t.WF) (hg : t.good = true)
    (hf : (f0 || f1 || f2 || f3 || f4) = true) :
    (Packet.next ⟨p, ⟨encStart id len ++ (bitsOf 2 2 ++ (bitsOf 2 sc ++ ([b0, b1, b2, b3] ++
      (bitsOf 2 t.flags ++ ([f0, f1, f2, f3, f4, f5] ++ (bitsOf 8 hdl ++ (encStamps t ++ r))))))),
        pos, stop, later⟩⟩).1 = .panic := by
  rw [next_start p id len hid hlen]
  have hmark := marker_bitsOf (r := bitsOf 2 sc ++ ([b0, b1, b2, b3] ++
      (bitsOf 2 t.flags ++ ([f0, f1, f2, f3, f4, f5] ++ (bitsOf 8 hdl ++ (encStamps t ++ r))))))
    (pos := pos + 48) (stop := stop) (later := later) 2 2 2 (by decide)
  rw [if_pos rfl] at hmark
  obtain ⟨x, hfix, hx1, hx2⟩ : ∃ x : Header, readFixed ⟨bitsOf 2 sc ++ ([b0, b1, b2, b3] ++
      (bitsOf 2 t.flags ++ ([f0, f1, f2, f3, f4, f5] ++ (bitsOf 8 hdl ++ (encStamps t ++ r))))),
      pos + 48 + 2, stop, later⟩ = (.ok x, ⟨encStamps t ++ r, pos + 48 + 2 + 22, stop, later⟩) ∧
      x.ptsDtsFlags = t.flags ∧ x.unsupported = true := by
    simp only [readFixed, List.append_assoc, List.cons_append, List.nil_append,
      Go.bind_apply, BR.read1_cons, BR.read_bitsOf, Go.pure_apply]
    exact ⟨_, rfl, Nat.mod_eq_of_lt (flags_lt t), hf⟩
  have hst := readStamps_enc (r := r) (pos := pos + 48 + 2 + 22) (stop := stop) (later := later) t ht hg
  have hp : ∃ b, readHeader ⟨bitsOf 2 2 ++ (bitsOf 2 sc ++ ([b0, b1, b2, b3] ++
      (bitsOf 2 t.flags ++ ([f0, f1, f2, f3, f4, f5] ++ (bitsOf 8 hdl ++ (encStamps t ++ r)))))),
      pos + 48, stop, later⟩ = (.panic, b) := by
    unfold readHeader
    rw [Go.bind_ok hmark, Go.bind_ok hfix, hx1, Go.bind_ok hst, hx2]
    exact ⟨_, rfl⟩
  obtain ⟨b, hp⟩ := hp
  unfold Packet.body
  rw [if_pos (hasHeader_of hh), Go.bind_apply]
  unfold headerInto
  rw [hp]

example : (Stamps.pts ⟨2, 12345, true, true, true⟩).WF ∧ (Stamps.pts ⟨2, 12345, true, true, true⟩).good = true ∧
    0xe0 ∉ noHeaderIds ∧ (true || false || false || false || false) = true := by decide
theorem C62_false : ∃ bs : List UInt8, (newPacket (BR.ofBytes bs)).1 = .panic :=
  ⟨[0, 0, 1, 0xe0, 0, 9, 0x80, 0x20, 6, 0, 4, 0, 4, 0, 1], by decide +kernel⟩

/-- **C63** (partial: the full claim is false, see `C63_false`).  A padding packet is skipped whole. -/
theorem C63_padding_partial {r : List Bool} {pos : Nat} {stop : Err} {later : List (List Bool × Err)}
    (p : Packet) (d : List UInt8) (hl : d.length < 65536) :
    ∃ p', Packet.next ⟨p, ⟨encPadding d ++ r, pos, stop, later⟩⟩ =
      (.ok (), ⟨p', ⟨r, pos + (encPadding d).length, stop, later⟩⟩) := by
  refine ⟨{ p with streamID := 0xbe, packetLength := d.length }, ?_⟩
  rw [next_padding p d hl]
  simp [encPadding, encStart]
  omega

/-- C63 as stated is false: for each of the seven other stream ids without header `Next` succeeds but leaves
the reader at the body of the packet, not behind it. -/
theorem C63_false {r : List Bool} {pos : Nat} {stop : Err} {later : List (List Bool × Err)}
    (p : Packet) (id : Nat) (d : List UInt8) (hid : id ∈ noHeaderIds) (hne : id ≠ 0xbe)
    (hl : d.length < 65536) :
    Packet.next ⟨p, ⟨encStart id d.length ++ (bitsOfBytes d ++ r), pos, stop, later⟩⟩ =
      (.ok (), ⟨{ p with streamID := id, packetLength := d.length },
        ⟨bitsOfBytes d ++ r, pos + 48, stop, later⟩⟩) := by
  have hi : id < 256 := by
    simp [noHeaderIds] at hid; omega
  have hh : hasPESHeader id = false := by
    simp [noHeaderIds] at hid
    rcases hid with h | h | h | h | h | h | h | h <;> subst h <;> rfl
  rw [next_start p id d.length hi hl]
  unfold Packet.body
  rw [if_neg (by simp [hh]), if_neg hne]
  rfl

example : (0xbf : Nat) ∈ noHeaderIds ∧ (0xbf : Nat) ≠ 0xbe := by decide

end Mpeg.PES
