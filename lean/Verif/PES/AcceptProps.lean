/-
C104: which PES packets are accepted.
-/
import Verif.PES.Props
namespace Mpeg.PES
open Spec
open Mpeg.TS (sub32)

theorem hasHeader_iff {id : Nat} : hasPESHeader id = true ↔ id ∉ noHeaderIds := by
  simp [hasPESHeader, noHeaderIds, and_assoc]
  intros
  constructor <;> (rintro ⟨h1, h2, h3⟩; simp_all)

/-- the bits of whole bytes are the bits of some bytes -/
theorem bits_of_whole {l : List Bool} (h : l.length % 8 = 0) : bitsOfBytes (bytesOfBits (l.length / 8) l) = l := by
  have := bitsOfBytes_bytesOfBits (n := l.length / 8) (l := l) (by omega)
  rw [this, List.take_of_length_le (by omega)]

/-- `Next` has read a packet of known length. -/
def GotBounded (q : Packet) (s s' : BR) : Prop :=
  ∃ id h d, id < 256 ∧ id ∉ noHeaderIds ∧ h.WF ∧ h.defect = none ∧ 3 + h.dataLen + d.length < 65536 ∧
    BR.Took s (encPacket id h d) s' ∧ q = ⟨id, 3 + h.dataLen + d.length, some (viewHdr h), d⟩

/-- `Next` has read a packet of unspecified length, to the end of its unit. -/
def GotUnbounded (q : Packet) (s s' : BR) : Prop :=
  ∃ id h d, id < 256 ∧ id ∉ noHeaderIds ∧ h.WF ∧ h.defect = none ∧ s.bits = encUnbounded id h d ∧
    (s.stop = .eof ∨ s.stop = .eop) ∧ s' = s.failTo ∧ q = ⟨id, 0, some (viewHdr h), d⟩

/-- `Next` has read a padding packet; the packet keeps the header and payload it had. -/
def GotPadding (p0 q : Packet) (s s' : BR) : Prop :=
  ∃ d : List UInt8, d.length < 65536 ∧ BR.Took s (encPadding d) s' ∧
    q = { p0 with streamID := 0xbe, packetLength := d.length }

/-- `Next` has read the start of a packet of one of the seven other stream ids without header, and nothing more. -/
def GotStart (p0 q : Packet) (s s' : BR) : Prop :=
  ∃ id len, id ∈ noHeaderIds ∧ id ≠ 0xbe ∧ len < 65536 ∧ BR.Took s (encStart id len) s' ∧
    q = { p0 with streamID := id, packetLength := len }

theorem sub_small {len n m : Nat} (hn : n < 1000) (h : sub32 len n = m) (hm : m < 2 ^ 32 - 1000) (hl : len < 65536) :
    n ≤ len ∧ m = len - n := by
  unfold sub32 at h; omega

theorem took_eq {s s' : BR} {l : List Bool} (h : BR.Took s l s') : s = ⟨l ++ s'.bits, s.pos, s'.stop, s'.later⟩ ∧
    s' = ⟨s'.bits, s.pos + l.length, s'.stop, s'.later⟩ := ⟨h.eq, by cases s'; simp [← h.pos]⟩

theorem length_encHdr' {h : Hdr} (w : h.WF) : (encHdr h).length = 8 * (3 + h.dataLen) := by
  have := length_hdrBits h h.dataLen w.2.2.2.1
  simp only [encHdr, encFixed, List.length_append, length_bitsOf] at this ⊢
  exact this

theorem length_encStart (id len : Nat) : (encStart id len).length = 48 := by simp [encStart]

theorem length_encPacket {id : Nat} {h : Hdr} (w : h.WF) (d : List UInt8) :
    (encPacket id h d).length = 8 * (9 + h.dataLen + d.length) := by
  simp only [encPacket, List.length_append, length_encHdr' w, length_encStart, length_bitsOfBytes]; omega

theorem length_encPadding (d : List UInt8) : (encPadding d).length = 8 * (6 + d.length) := by
  simp only [encPadding, List.length_append, length_encStart, length_bitsOfBytes]; omega

/-- **C104** (exactly): on a source of whole bytes below 4 GiB, `Next` succeeds exactly on the four kinds of packet above, and
in each case what is returned and where the reader then stands is as said there. -/
theorem C104_exact {p0 q : Packet} {s s' : BR} (hs : s.bits.length < 8 * (2 ^ 32 - 1000)) (h8 : s.bits.length % 8 = 0) :
    Packet.next ⟨p0, s⟩ = (.ok (), ⟨q, s'⟩) ↔
      GotBounded q s s' ∨ GotUnbounded q s s' ∨ GotPadding p0 q s s' ∨ GotStart p0 q s s' := by
  constructor
  · intro h
    obtain ⟨id, len, b, hid, hlen, t, hb⟩ := next_inv h
    simp only at t hb
    have hbl := congrArg List.length t.bits
    rw [List.length_append, length_encStart] at hbl
    by_cases hh : hasPESHeader id = true
    · obtain ⟨e1, e2, e3⟩ := body_inv hb
      obtain ⟨x, n, y, hm, hx, hr⟩ := e3 hh
      simp only at hm hr e1 e2 hx
      obtain ⟨hd, w, df, t2, e⟩ := readHeader_sound hm (by omega)
      simp only [Prod.mk.injEq] at e
      obtain ⟨rfl, rfl⟩ := e
      have hy := congrArg List.length t2.bits
      rw [List.length_append, length_encHdr' w] at hy
      have hdl : hd.dataLen < 256 := w.2.2.2.2
      by_cases hl0 : len > 0
      · rw [if_pos hl0] at hr
        obtain ⟨l, t3, l1, l2, l3⟩ := bounded_took hr
        simp only at t3 l2 l3
        have h3 := congrArg List.length t3.bits
        rw [List.length_append, l1] at h3
        obtain ⟨g1, g2⟩ := sub_small (n := 3 + hd.dataLen) (len := len) (by omega) rfl (by omega) hlen
        have hlq : len = 3 + hd.dataLen + q.payload.length := by omega
        refine .inl ⟨id, hd, q.payload, hid, hasHeader_iff.1 hh, w, df, by omega, ?_, ?_⟩
        · have := (t.trans t2).trans t3
          rw [l3, hlq] at this
          exact this
        · obtain ⟨q1, q2, q3, q4⟩ := q
          simp only at e1 e2 hx hlq ⊢
          rw [e1, e2, hx, hlq]
      · obtain rfl : len = 0 := by omega
        rw [if_neg hl0] at hr
        unfold unboundedPayload BR.readAll at hr
        simp only at hr
        have hst : (s.stop = .eof ∨ s.stop = .eop) ∧
            q.payload = bytesOfBits (y.bits.length / 8) y.bits ∧ s' = y.failTo := by
          rw [← t.stop, ← t2.stop]
          by_cases h1 : y.stop = .eof
          · simp only [h1, if_true, Prod.mk.injEq, St.mk.injEq, true_and] at hr
            exact ⟨.inl h1, by rw [← hr.1], hr.2.symm⟩
          · by_cases h2 : y.stop = .eop
            · simp [h2] at hr
              exact ⟨.inr h2, by rw [← hr.1], hr.2.symm⟩
            · exfalso
              cases hq : y.stop <;> simp_all
        obtain ⟨hst, hpay, hs'⟩ := hst
        have hw8 : y.bits.length % 8 = 0 := by omega
        refine .inr (.inl ⟨id, hd, q.payload, hid, hasHeader_iff.1 hh, w, df, ?_, hst, ?_, ?_⟩)
        · rw [hpay, encUnbounded, bits_of_whole hw8, t.bits, t2.bits, List.append_assoc]
        · rw [hs']
          have tt := t.trans t2
          have hp := tt.pos
          have hb2 := congrArg List.length tt.bits
          rw [List.length_append] at hb2
          unfold BR.failTo
          rw [tt.stop, tt.later]
          have : y.pos + y.bits.length = s.pos + s.bits.length := by omega
          rw [this]
        · obtain ⟨q1, q2, q3, q4⟩ := q
          simp only at e1 e2 hx ⊢
          rw [e1, e2, hx]
    · have hpk := next_body_pkt (len := len) (Bool.eq_false_iff.2 hh) ⟨{ p0 with streamID := id, packetLength := len }, b⟩
      rw [hb] at hpk
      simp only at hpk
      unfold Packet.body at hb
      rw [if_neg hh] at hb
      have hni : id ∈ noHeaderIds := by
        apply Classical.byContradiction; intro hc; exact hh (hasHeader_iff.2 hc)
      by_cases hp : id = paddingStream
      · rw [if_pos hp] at hb
        obtain ⟨x, s1, h1, h2⟩ := Go.bind_eq_ok hb
        obtain ⟨a1, a2⟩ := lift_inv h1
        obtain ⟨t2, l2⟩ := readExact_inv a1
        simp only [Go.pure_apply, Prod.mk.injEq, true_and] at h2
        subst h2
        simp only at t2
        refine .inr (.inr (.inl ⟨x, by omega, ?_, ?_⟩))
        · have := t.trans t2
          rw [hp, ← l2] at this
          exact this
        · rw [hpk, hp, l2]
      · rw [if_neg hp] at hb
        cases hb
        exact .inr (.inr (.inr ⟨id, len, hni, hp, hlen, t, rfl⟩))
  · rintro (⟨id, h, d, h1, h2, h3, h4, h5, t, rfl⟩ | ⟨id, h, d, h1, h2, h3, h4, hb, hst, rfl, rfl⟩ | ⟨d, h1, t, rfl⟩ |
      ⟨id, len, h1, h2, h3, t, rfl⟩)
    · obtain ⟨e1, e2⟩ := took_eq t
      rw [e1, e2, next_packet p0 id h d h1 (hasHeader_iff.2 h2) h3 h4 h5, length_encPacket h3]
    · have e : s = ⟨encUnbounded id h d, s.pos, s.stop, s.later⟩ := by cases s; simp only at hb; rw [hb]
      rw [e]
      exact next_unbounded p0 id h d h1 (hasHeader_iff.2 h2) h3 h4 hst
    · obtain ⟨e1, e2⟩ := took_eq t
      rw [e1, e2, next_padding p0 d h1, length_encPadding]
    · obtain ⟨e1, e2⟩ := took_eq t
      rw [e1, e2, next_start p0 id len (by simp [noHeaderIds] at h1; omega) h3, length_encStart]
      have hh : hasPESHeader id ≠ true := fun hc => hasHeader_iff.1 hc h1
      unfold Packet.body
      rw [if_neg hh, if_neg (show ¬ id = paddingStream from h2)]
      rfl

theorem gotBounded_enc (id : Nat) (h : Hdr) (d e : List UInt8) (h1 : id < 256) (h2 : id ∉ noHeaderIds) (h3 : h.WF)
    (h4 : h.defect = none) (h5 : 3 + h.dataLen + d.length < 65536) :
    GotBounded ⟨id, 3 + h.dataLen + d.length, some (viewHdr h), d⟩ (BR.ofBits (encPacket id h d ++ bitsOfBytes e))
      ⟨bitsOfBytes e, 8 * (9 + h.dataLen + d.length), .eof, []⟩ :=
  ⟨id, h, d, h1, h2, h3, h4, h5, ⟨rfl, by rw [length_encPacket h3]; exact (Nat.zero_add _).symm, rfl, rfl⟩, rfl⟩

/-- the first case with a header that uses everything, and a byte after the packet -/
example : ∃ q s', GotBounded q (BR.ofBits (encPacket 0xe0 exHdr [1, 2, 3] ++ bitsOfBytes [7])) s' ∧ s'.bits.length = 8 :=
  ⟨_, _, gotBounded_enc 0xe0 exHdr [1, 2, 3] [7] (by decide) (by decide) exHdr_wf.1 exHdr_wf.2 (by decide +kernel), rfl⟩

/-- A packet of the standard with the optional fields that are supported: PTS_DTS_flags is not the forbidden 01. -/
def Spec.Hdr.Standard (h : Hdr) : Prop := h.WF ∧ h.defect = none ∧ h.stamps ≠ .forbidden

/-- **C104** (partial: only for stream ids with header, and only if PTS_DTS_flags is not reported as 01; see `C104_false` and
`C63_false`): on a source of whole bytes below 4 GiB, `Next` returns a packet with header exactly if the input begins with a
packet of the standard, and it returns what that packet contains. -/
theorem C104_partial {p0 q : Packet} {s s' : BR} (hs : s.bits.length < 8 * (2 ^ 32 - 1000)) (h8 : s.bits.length % 8 = 0)
    (hid : q.streamID ∉ noHeaderIds) (hf : ∀ x, q.header = some x → x.ptsDtsFlags ≠ 1) :
    Packet.next ⟨p0, s⟩ = (.ok (), ⟨q, s'⟩) ↔
      ∃ id h d, id < 256 ∧ h.Standard ∧ q.streamID = id ∧ q.header = some (viewHdr h) ∧ q.payload = d ∧
        ((3 + h.dataLen + d.length < 65536 ∧ q.packetLength = 3 + h.dataLen + d.length ∧ BR.Took s (encPacket id h d) s') ∨
         (q.packetLength = 0 ∧ s.bits = encUnbounded id h d ∧ (s.stop = .eof ∨ s.stop = .eop) ∧ s' = s.failTo)) := by
  have hst : ∀ h : Hdr, q.header = some (viewHdr h) → h.stamps ≠ .forbidden := by
    intro h e hc
    refine hf _ e ?_
    show h.stamps.flags = 1
    rw [hc]; rfl
  rw [C104_exact hs h8]
  constructor
  · rintro (⟨id, h, d, h1, h2, h3, h4, h5, t, rfl⟩ | ⟨id, h, d, h1, h2, h3, h4, hb, hs, rfl, rfl⟩ | ⟨d, h1, t, rfl⟩ |
      ⟨id, len, h1, h2, h3, t, rfl⟩)
    · exact ⟨id, h, d, h1, ⟨h3, h4, hst h rfl⟩, rfl, rfl, rfl, .inl ⟨h5, rfl, t⟩⟩
    · exact ⟨id, h, d, h1, ⟨h3, h4, hst h rfl⟩, rfl, rfl, rfl, .inr ⟨rfl, hb, hs, rfl⟩⟩
    · exact absurd (show 0xbe ∈ noHeaderIds by decide) hid
    · exact absurd h1 hid
  · rintro ⟨id, h, d, h1, ⟨h3, h4, _⟩, rfl, e2, rfl, (⟨h5, e3, t⟩ | ⟨e3, hb, hst, e4⟩)⟩
    · refine .inl ⟨_, h, _, h1, hid, h3, h4, h5, t, ?_⟩
      cases q; simp only at e2 e3; subst e2 e3; rfl
    · refine .inr (.inl ⟨_, h, _, h1, hid, h3, h4, hb, hst, e4, ?_⟩)
      cases q; simp only at e2 e3; subst e2 e3; rfl

/-- C104 as stated is false: a packet with the forbidden PTS_DTS_flags 01 is accepted. -/
theorem C104_false : ∃ bs : List UInt8, bs.length = 10 ∧ (newPacket (BR.ofBytes bs)).1 = .ok () ∧
    (∃ x, (newPacket (BR.ofBytes bs)).2.pkt.header = some x ∧ x.ptsDtsFlags = 1) ∧
    (newPacket (BR.ofBytes bs)).2.br.pos = 80 :=
  ⟨[0, 0, 1, 0xe0, 0, 4, 0x80, 0x40, 0, 7], rfl, by decide +kernel, ⟨_, rfl, by decide +kernel⟩, by decide +kernel⟩

end Mpeg.PES
