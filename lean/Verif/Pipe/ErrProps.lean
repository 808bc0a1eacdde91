/-
C129: which errors the functions of the library report.
-/
import Verif.Pipe.ErrLemmas
import Verif.Text.Model
import Verif.Video.ResyncProps
set_option linter.all false
namespace Mpeg
open BR

/-! ### the pack reader -/

namespace PS
theorem newPackHeader_eq : newPackHeader = (do
    codeAssert 32 packStartCode .unexpectedStartCode
    let h ← (do
      marker 2 1
      let v1 ← BR.read 3
      marker 1 1
      let v2 ← BR.read 15
      marker 1 1
      let v3 ← BR.read 15
      marker 1 1
      let ext ← BR.read 9
      marker 1 1
      let rate ← BR.read 22
      marker 1 1
      marker 1 1
      BR.skip 5
      let n ← BR.read 3
      skipStuffing n
      pure ({ scrBase := ((v1 <<< 30) % 2 ^ 32 ||| (v2 <<< 15) % 2 ^ 32) ||| v3, scrExtension := ext, muxRate := rate } : PackHeader))
    let t ← codeCheck 32 systemHeaderStartCode
    let sys ← Go.opt t none (some <$> readSystemHeader)
    pure { h with system := sys }) := by
  unfold newPackHeader readPackFixed
  rw [bind_assoc]

/-- A pack header whose start code is there reports no unexpected start code. -/
theorem pack_err {s s1 s' : BR} {e : Err} (hp : BR.peek 32 s = (.ok packStartCode, s1))
    (h : newPackHeader s1 = (.err e, s')) : e = .markerNotFound ∨ (s1.Says e ∧ s1.Left s') := by
  obtain ⟨h32, hv, hs1⟩ : 32 ≤ s.bits.length ∧ natOfBits (s.bits.take 32) = packStartCode ∧ s = s1 := by
    unfold BR.peek at hp
    split at hp
    · rename_i h; simp only [Prod.mk.injEq, Res.ok.injEq] at hp; exact ⟨h, hp⟩
    · cases hp
  subst hs1
  have ha : codeAssert 32 packStartCode .unexpectedStartCode s = (.ok (), s.adv 32) := by
    unfold codeAssert codeCheck
    rw [bind_assoc, Go.bind_ok (peek_ok h32), hv]
    exact skip_ok h32
  rw [newPackHeader_eq, Go.bind_ok ha] at h
  have h0 : BR.Moves s (s.adv 32) := .adv _ .refl
  refine (Go.Er.er (F := [.markerNotFound]) (gt := fun s => s) ?_ (s.adv 32) e s' h).imp (fun g => by simpa using g)
    fun ⟨g1, g2⟩ => ⟨h0.says g1, g2.of_moves h0⟩
  unfold codeCheck
  repeat' with_reducible first
    | refine Go.Er.bind ?_ (fun _ => ?_)
    | exact Go.Er.pure _
    | exact er_marker _ _
    | exact er_read _
    | exact er_peek _
    | exact er_skip _
    | exact er_skipStuffing _
    | exact er_system (by decide)
    | refine Go.Er.opt ?_
    | refine Go.Er.map _ ?_

/-- The errors of `Read`: `io.EOF` behind a program end code, a missing marker in a pack header, or the source's. -/
def PkErr (s s' : BR) (e : Err) : Prop :=
  e = .markerNotFound ∨ (e = .eof ∧ ∃ b, BR.Moves s b ∧ (BR.peek 32 b).1 = .ok programEndCode ∧ s' = b.adv 32) ∨
  (s.Says e ∧ s.Left s')

theorem PkErr.of_moves {a b c : BR} {e : Err} (h : BR.Moves a b) : PkErr b c e → PkErr a c e
  | .inl h1 => .inl h1
  | .inr (.inl ⟨h1, x, h2, h3⟩) => .inr (.inl ⟨h1, x, h.trans h2, h3⟩)
  | .inr (.inr ⟨h1, h2⟩) => .inr (.inr ⟨h.says h1, h2.of_moves h⟩)

theorem more_err {again : Nat → List UInt8 → Go PackReader RR}
    (ha : ∀ k out r r' x e, again k out r = (.ok x, r') → x.err = some e → PkErr r.br r'.br e)
    (k : Nat) (out : List UInt8) (r r' : PackReader) (x : RR) (e : Err)
    (h : PackReader.more again k out r = (.ok x, r')) (he : x.err = some e) : PkErr r.br r'.br e := by
  unfold PackReader.more at h
  have h0 := er_newPacket.mv r.br
  cases hm : newPacket r.br with
  | mk q b =>
    rw [hm] at h h0
    cases q with
    | ok p =>
      dsimp only at h
      split at h
      · cases h; cases he
      · exact (ha _ _ { r with br := b } _ _ _ h he).of_moves h0
    | err y => cases h; cases he
    | panic => cases h
    | hang => cases h

theorem step_err : ∀ f k out (r r' : PackReader) (x : RR) (e : Err),
    PackReader.step f k out r = (.ok x, r') → x.err = some e → PkErr r.br r'.br e
  | 0, _, _, _, _, _, _, h, _ => by cases h
  | f + 1, k, out, r, r', x, e, h, he => by
    unfold PackReader.step at h
    have hm := mv_peek 32 r.br
    cases hp : BR.peek 32 r.br with
    | mk q b =>
      rw [hp] at h hm
      cases q with
      | ok v =>
        have hb : b = r.br := by
          unfold BR.peek at hp; split at hp
          · exact (congrArg Prod.snd hp).symm
          · cases hp
        dsimp only at h
        split at h
        · rename_i hv
          have h32 : 32 ≤ b.bits.length := by
            rw [hb]; unfold BR.peek at hp; split at hp
            · assumption
            · cases hp
          rw [skip_ok h32] at h
          cases h; cases he
          exact .inr (.inl ⟨rfl, b, hm, by rw [hb, hp, hv], rfl⟩)
        · split at h
          · rename_i hv
            subst hv
            have h1 := (er_packRest (F := [.markerNotFound, .unexpectedStartCode]) (by decide) (by decide)).mv b
            cases hn : newPackHeader b with
            | mk q2 b2 =>
              rw [hn] at h h1
              cases q2 with
              | ok y =>
                exact (more_err (step_err f) k out { r with br := b2 } _ _ _ h he).of_moves (hm.trans h1)
              | err y =>
                cases h; cases he
                exact PkErr.of_moves hm ((pack_err (by rw [hb]; exact hb ▸ hp) hn).imp id fun g => .inr g)
              | panic => cases h
              | hang => cases h
          · exact (more_err (step_err f) k out { r with br := b } _ _ _ h he).of_moves hm
      | err y => cases h; cases he
      | panic => cases h
      | hang => cases h
end PS

/-! ### the exported header functions -/

namespace Video
theorem withNext_err {α : Type} {F : List Err} {m : Go BR α} (hm : BR.Er F m) (hn : .unexpectedNonZeroByte ∈ F)
    {s s' : BR} {x : Option α} {e : Err} (h : withNext m s = (.ok (x, some e), s')) : e ∈ F ∨ (s.Says e ∧ s.Left s') := by
  have h0 := hm.mv s
  have h1 := hm.er s
  unfold withNext at h
  cases hr : m s with
  | mk r b =>
    rw [hr] at h h0
    cases r with
    | ok a =>
      have h2 := (er_nextStartCode hn).er b
      dsimp only at h
      cases hq : nextStartCode b with
      | mk q c =>
        rw [hq] at h
        cases q with
        | ok u => cases h
        | err y => cases h; exact (h2 _ _ hq).imp id fun ⟨g1, g2⟩ => ⟨h0.says g1, g2.of_moves h0⟩
        | panic => cases h
        | hang => cases h
    | err y => cases h; exact h1 _ _ hr
    | panic => cases h
    | hang => cases h
end Video

/-! ### C129 -/

/-- **C129**: an error that `Next` of the video decoder returns is one of eight, or it comes from the source — which has
then been read to the end (of its segment): the end of the input is never reported while there is input left. -/
theorem Video.C129_next (fuel k : Nat) (s s' : Video.VS) (e : Err) (h : VS.next fuel k s = (.err e, s')) :
    e ∈ [.unexpectedStartCode, .unexpectedExtensionID, .unexpectedNonZeroByte, .missingMarkerBit, .invalidReservedBits,
      .missingHuffmanValue, .eos, .unsupported11172] ∨ (s.br.Says e ∧ s.br.Left s'.br) := by
  unfold VS.next at h
  split at h
  · cases h
  · exact (er_nextLoop fuel k).er s e s' h

/-- **C129**: the same for a plain source: what is left is `io.EOF` and `io.ErrUnexpectedEOF`, when all has been read. -/
theorem Video.C129_plain (fuel k : Nat) (s s' : Video.VS) (e : Err) (hs : s.br.stop = .eof) (hl : s.br.later = [])
    (h : VS.next fuel k s = (.err e, s')) :
    e ∈ [.unexpectedStartCode, .unexpectedExtensionID, .unexpectedNonZeroByte, .missingMarkerBit, .invalidReservedBits,
      .missingHuffmanValue, .eos, .unsupported11172] ∨ ((e = .eof ∨ e = .unexpectedEOF) ∧ s'.br.bits = []) := by
  refine (C129_next fuel k s s' e h).imp id fun ⟨h1, h2⟩ => ⟨?_, ?_⟩
  · rcases h1 with h1 | ⟨h1, _⟩
    · unfold BR.stops at h1; rw [hs, hl] at h1; exact .inl (by simpa using h1)
    · exact .inr h1
  · rcases h2 with h2 | h2
    · rw [hl] at h2; cases h2
    · exact h2.1

/-- **C129**: `AlignTo` reports only errors of the source. -/
theorem Video.C129_alignTo (code : Nat) (s s' : BR) (e : Err) (h : alignTo code s = (.err e, s')) :
    s.Says e ∧ s.Left s' :=
  ((er_alignTo (F := []) code).er s e s' h).resolve_left (by simp)

/-- **C129**: the errors of `ReadSequenceHeader`. -/
theorem Video.C129_sequenceHeader (s s' : BR) (x : Option SequenceHeader) (e : Err)
    (h : readSequenceHeaderBoth s = (.ok (x, some e), s')) :
    e ∈ [.unexpectedStartCode, .missingMarkerBit, .unexpectedNonZeroByte] ∨ (s.Says e ∧ s.Left s') := by
  refine withNext_err ?_ (by decide) h
  unfold sequenceHeaderFields startCode
  er_steps

/-- **C129**: the errors of `ReadGOPHeader`. -/
theorem Video.C129_gopHeader (s s' : BR) (x : Option GOPHeader) (e : Err)
    (h : readGOPHeaderBoth s = (.ok (x, some e), s')) :
    e ∈ [.unexpectedStartCode, .unexpectedNonZeroByte] ∨ (s.Says e ∧ s.Left s') := by
  refine withNext_err ?_ (by decide) h
  unfold gopHeaderFields startCode
  er_steps

/-- **C129**: the errors of a transport stream packet. -/
theorem TS.C129_packet (s s' : TS.St) (e : Err) (h : Packet.next s = (.err e, s')) :
    e = .noSyncByte ∨ (s.br.Says e ∧ s.br.Left s'.br) :=
  ((er_next (F := [.noSyncByte])).er s e s' h).imp (fun g => by simpa using g) id

/-- **C129**: the errors of `Read` of a payload reader that has not been closed by `TakeWhile`; it is closed by the packet
it has just read. -/
theorem TS.C129_payload (c : TS.PRCfg) (fuel n : Nat) (r r' : TS.PR) (o : List UInt8) (e : Err) (hc : r.closed = false)
    (h : PR.read c fuel n r = (.ok (o, some e), r')) :
    e = .noSyncByte ∨ (e = .eof ∧ c.takeWhile r'.st.pkt = false) ∨ (r.st.br.Says e ∧ r.st.br.Left r'.st.br) := by
  rcases er_prread c fuel n r r' o e hc h with (h | ⟨h1, _, h2⟩) | h
  · exact .inl h
  · exact .inr (.inl ⟨h1, h2⟩)
  · exact .inr (.inr h)

/-- **C129**: the errors of `Read` of a payload unit reader. -/
theorem TS.C129_unit (w : TS.Tester) (fuel n : Nat) (r r' : TS.PU) (o : List UInt8) (e : Err)
    (h : PU.read w fuel n r = (.ok (o, some e), r')) :
    e = .eop ∨ e = .noSyncByte ∨ (r.st.br.Says e ∧ r.st.br.Left r'.st.br) := puread w fuel n r r' o e h

/-- **C129**: the errors of a PES packet. -/
theorem PES.C129_packet (s s' : PES.St) (e : Err) (h : Packet.next s = (.err e, s')) :
    e ∈ [.startCodePrefixNotFound, .markerNotFound, .invalidStuffingByte] ∨ (s.br.Says e ∧ s.br.Left s'.br) :=
  er_next.er s e s' h

/-- **C129**: the errors of `Read` of the PES payload reader. -/
theorem PES.C129_payload (fuel n : Nat) (r r' : PES.PR) (o : List UInt8) (e : Err)
    (h : PR.read fuel n r = (.ok (o, some e), r')) :
    e ∈ [.startCodePrefixNotFound, .markerNotFound, .invalidStuffingByte] ∨ (r.st.br.Says e ∧ r.st.br.Left r'.st.br) :=
  er_prfill _ _ _ _ { r with remainder := r.remainder.drop n } r' o e h

/-- **C129**: the errors of a pack header. -/
theorem PS.C129_packHeader (s s' : BR) (e : Err) (h : newPackHeader s = (.err e, s')) :
    e ∈ [.markerNotFound, .unexpectedStartCode] ∨ (s.Says e ∧ s.Left s') :=
  (er_packRest (by decide) (by decide)).er s e s' h

/-- **C129**: the errors of `Read` of the pack reader: `io.EOF` only behind a program end code. -/
theorem PS.C129_payload (n : Nat) (r r' : PS.PackReader) (x : PS.RR) (e : Err)
    (h : PackReader.read n r = (.ok x, r')) (he : x.err = some e) :
    e = .markerNotFound ∨ (e = .eof ∧ ∃ b, BR.Moves r.br b ∧ (BR.peek 32 b).1 = .ok 0x1b9 ∧ r'.br = b.adv 32) ∨
    (r.br.Says e ∧ r.br.Left r'.br) := by
  unfold PackReader.read at h
  split at h
  · cases h; cases he
  · exact step_err _ _ _ { r with remainder := [] } _ _ _ h he

/-! ### every one of these errors occurs -/

namespace Video
open Spec
namespace ExErr
open ExStream ExResync
/-- a sequence with the headers of an I picture -/
def hdr (tr : Nat) : List Bool :=
  byte (encSeq (seqH 16)) ++ (byte (encSeqExt (seqE 1)) ++ (byte (encGOP gopH) ++ (byte (encPic ⟨tr, .other 1, 0, []⟩) ++ byte (encPicExt picE))))
/-- what `Next` of a new decoder reports for these bits -/
def first (bits : List Bool) : Option Err :=
  match (VS.next 1000 2 (VS.new ⟨bits, 0, .eof, []⟩)).1 with
  | .err e => some e
  | _ => none
theorem first_spec {bits : List Bool} {e : Err} (h : first bits = some e) :
    (VS.next 1000 2 (VS.new ⟨bits, 0, .eof, []⟩)).1 = .err e := by
  unfold first at h
  split at h
  · rename_i h1; cases h; exact h1
  · cases h
end ExErr

open ExStream ExResync ExErr in
/-- **C129**: each of the eight errors is reported by the first `Next` of a new decoder for some input. -/
theorem C129_next_all : ∀ e ∈ ([.unexpectedStartCode, .unexpectedExtensionID, .unexpectedNonZeroByte, .missingMarkerBit,
    .invalidReservedBits, .missingHuffmanValue, .eos, .unsupported11172] : List Err),
    ∃ bits, (VS.next 1000 2 (VS.new ⟨bits, 0, .eof, []⟩)).1 = .err e := by
  intro e he
  simp only [List.mem_cons, List.not_mem_nil, or_false] at he
  rcases he with rfl | rfl | rfl | rfl | rfl | rfl | rfl | rfl
  · exact ⟨bitsOf 32 0x100, first_spec (by decide +kernel)⟩
  · exact ⟨byte (encSeq (seqH 16)) ++ (bitsOf 32 0x1B5 ++ bitsOf 4 2), first_spec (by decide +kernel)⟩
  · exact ⟨bitsOf 24 0xffffff, first_spec (by decide +kernel)⟩
  · exact ⟨bitsOf 32 0x1B3 ++ zeros 51, first_spec (by decide +kernel)⟩
  · exact ⟨hdr 0 ++ (bitsOf 32 0x101 ++ bitsOf 14 0xffff), first_spec (by decide +kernel)⟩
  · exact ⟨hdr 0 ++ (bitsOf 32 0x101 ++ junk), first_spec (by decide +kernel)⟩
  · exact ⟨hdr 1 ++ (sliceBits ++ bitsOf 32 0x1B7), first_spec (by decide +kernel)⟩
  · exact ⟨byte (encSeq (seqH 16)) ++ bitsOf 32 0x1B8, first_spec (by decide +kernel)⟩

open ExErr in
/-- **C129**: the two errors of a plain source occur too. -/
theorem C129_source_all : ∀ e ∈ ([.eof, .unexpectedEOF] : List Err),
    ∃ bits, (VS.next 1000 2 (VS.new ⟨bits, 0, .eof, []⟩)).1 = .err e := by
  intro e he
  simp only [List.mem_cons, List.not_mem_nil, or_false] at he
  rcases he with rfl | rfl
  · exact ⟨[], first_spec (by decide +kernel)⟩
  · exact ⟨hdr 0 ++ bitsOf 16 0, first_spec (by decide +kernel)⟩

/-- **C129**: ... and so are those of the header functions. -/
theorem C129_headers_all :
    (∀ e ∈ ([.unexpectedStartCode, .missingMarkerBit, .unexpectedNonZeroByte] : List Err), ∃ bits x s',
      readSequenceHeaderBoth ⟨bits, 0, .eof, []⟩ = (.ok (x, some e), s')) ∧
    (∀ e ∈ ([.unexpectedStartCode, .unexpectedNonZeroByte] : List Err), ∃ bits x s',
      readGOPHeaderBoth ⟨bits, 0, .eof, []⟩ = (.ok (x, some e), s')) := by
  have key : ∀ {α : Type} {m : Go BR (Option α × Option Err)} {s : BR} {e : Err},
      (match (m s).1 with | .ok (_, e') => e' | _ => none) = some e → ∃ x s', m s = (.ok (x, some e), s') := by
    intro α m s e h
    cases hm : m s with
    | mk r s' =>
      rw [hm] at h
      cases r with
      | ok p => obtain ⟨x, y⟩ := p; cases h; exact ⟨x, s', rfl⟩
      | err y => cases h
      | panic => cases h
      | hang => cases h
  constructor
  · intro e he
    simp only [List.mem_cons, List.not_mem_nil, or_false] at he
    rcases he with rfl | rfl | rfl
    · exact ⟨bitsOf 32 0x100, key (by decide +kernel)⟩
    · exact ⟨bitsOf 32 0x1B3 ++ zeros 51, key (by decide +kernel)⟩
    · exact ⟨ExStream.byte (encSeq (ExStream.seqH 16)) ++ bitsOf 24 0xffffff, key (by decide +kernel)⟩
  · intro e he
    simp only [List.mem_cons, List.not_mem_nil, or_false] at he
    rcases he with rfl | rfl
    · exact ⟨bitsOf 32 0x100, key (by decide +kernel)⟩
    · exact ⟨bitsOf 32 0x1B8 ++ (zeros 32 ++ bitsOf 24 0xffffff), key (by decide +kernel)⟩
end Video

/-- **C129**: 188 bytes without a sync byte. -/
theorem TS.C129_packet_all : (Packet.next ⟨Packet.new, BR.ofBytes (List.replicate 189 0)⟩).1 = .err .noSyncByte := by
  decide +kernel

/-- **C129**: each of the three errors of PES packets occurs. -/
theorem PES.C129_packet_all : ∀ e ∈ ([.startCodePrefixNotFound, .markerNotFound, .invalidStuffingByte] : List Err),
    ∃ bytes, (Packet.next ⟨{}, BR.ofBytes bytes⟩).1 = .err e := by
  intro e he
  simp only [List.mem_cons, List.not_mem_nil, or_false] at he
  rcases he with rfl | rfl | rfl
  · exact ⟨[0, 0, 2], by decide +kernel⟩
  · exact ⟨[0, 0, 1, 0xe0, 0, 10, 0], by decide +kernel⟩
  · exact ⟨[0, 0, 1, 0xe0, 0, 10, 0x80, 0, 1, 0], by decide +kernel⟩

/-- **C129**: a marker that cannot be read is reported as missing, whatever the error of the source: here the packet ends
behind its length. -/
theorem PES.C129_hidden (e : Err) :
    (Packet.next ⟨{}, ⟨bitsOfBytes [0, 0, 1, 0xe0, 0, 10], 0, e, []⟩⟩).1 = .err .markerNotFound := by
  cases e <;> decide +kernel

/-- **C129**: both errors of pack headers occur, and the pack reader reports both of its own. -/
theorem PS.C129_pack_all :
    (∀ e ∈ ([.markerNotFound, .unexpectedStartCode] : List Err), ∃ bytes, (newPackHeader (BR.ofBytes bytes)).1 = .err e) ∧
    (∀ e ∈ ([.markerNotFound, .eof] : List Err), ∃ bytes x, x.err = some e ∧
      (PackReader.read 1 (PackReader.new (BR.ofBytes bytes))).1 = .ok x) := by
  constructor
  · intro e he
    simp only [List.mem_cons, List.not_mem_nil, or_false] at he
    rcases he with rfl | rfl
    · exact ⟨[0, 0, 1, 0xba, 0], by decide +kernel⟩
    · exact ⟨[0, 0, 1, 0xbb], by decide +kernel⟩
  · intro e he
    simp only [List.mem_cons, List.not_mem_nil, or_false] at he
    rcases he with rfl | rfl
    · exact ⟨[0, 0, 1, 0xba, 0], ⟨[], 0, some .markerNotFound⟩, rfl, by decide +kernel⟩
    · exact ⟨[0, 0, 1, 0xb9], ⟨[], 0, some .eof⟩, rfl, by decide +kernel⟩

end Mpeg
