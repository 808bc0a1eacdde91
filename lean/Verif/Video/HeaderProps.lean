/-
Properties C33 - C43 (video headers) and C66 (the header parsers are total).
-/
import Verif.Video.HeaderTotal
set_option linter.all false
namespace Mpeg.Video
open Spec

/-! ### C33 -/

/-- **C33** `IsSlice` holds exactly for the codes 0x101 .. 0x1AF. -/
theorem C33 (code : Nat) : isSlice code = true ↔ 0x101 ≤ code ∧ code ≤ 0x1AF := by
  unfold isSlice minSliceStartCode maxSliceStartCode
  simp only [Bool.and_eq_true, decide_eq_true_eq]

example : isSlice 0x101 = true ∧ isSlice 0x1AF = true ∧ isSlice 0x100 = false ∧ isSlice 0x1B0 = false := by decide

/-! ### C34 -/

/-- **C34** `next_start_code` succeeds exactly when, from the next byte boundary on, only zero bytes precede a
start code prefix; it then stands on that prefix, at the bit position of the prefix. -/
theorem C34 (s s' : BR) :
    nextStartCode s = (.ok (), s') ↔
      ∃ k r, fromBoundary s = zeros (8 * k) ++ (prefix1 ++ r) ∧
        s' = ⟨prefix1 ++ r, s.pos + padding s.pos + 8 * k, s.stop, s.later⟩ := by
  have hr := nextStartCode_result s
  constructor
  · intro h
    rw [h] at hr
    generalize hx : ((.ok (), s') : Res Unit × BR) = x at hr
    cases hr with
    | found k r hb =>
      cases hx
      refine ⟨k, r, hb, ?_⟩
      have hd : (s.bits.drop (padding s.pos)).drop (8 * k) = prefix1 ++ r := by
        have : s.bits.drop (padding s.pos) = zeros (8 * k) ++ (prefix1 ++ r) := hb
        rw [this, List.drop_left' (by simp [zeros])]
      simp only [BR.adv, hd]
    | nonzero => cases hx
    | ended => cases hx
  · rintro ⟨k, r, hb, rfl⟩
    generalize hx : nextStartCode s = x at hr
    have hb' : (s.adv (padding s.pos)).bits = zeros (8 * k) ++ (prefix1 ++ r) := hb
    have e := nextStartCode_tail (stop := s.stop) (later := s.later) (pos := s.pos)
      ⟨s.bits.take (padding s.pos), k, r⟩ (by
        unfold Tail.OK
        rw [List.length_take]
        have : padding s.pos ≤ s.bits.length := by
          have := congrArg List.length hb'
          simp only [BR.adv, List.length_drop, List.length_append, prefix1_length] at this
          omega
        omega)
    have hs : s = ⟨Tail.bits ⟨s.bits.take (padding s.pos), k, r⟩, s.pos, s.stop, s.later⟩ := by
      cases s with
      | mk b p st l =>
        simp only [Tail.bits, BR.mk.injEq, and_true]
        have : b.drop (padding p) = zeros (8 * k) ++ (prefix1 ++ r) := hb
        rw [← this, List.take_append_drop]
    rw [← hx]
    conv => lhs; rw [hs]
    rw [e]
    simp only [Tail.after, Prod.mk.injEq, BR.mk.injEq, true_and, and_true]
    have : padding s.pos ≤ s.bits.length := by
      have := congrArg List.length hb'
      simp only [BR.adv, List.length_drop, List.length_append, prefix1_length] at this
      omega
    rw [List.length_take]; omega

/-- **C34** (no start code is consumed) Whatever `next_start_code` skips before it stops successfully contains no
start code prefix: every byte it passed is zero, and no prefix starts at an earlier byte. -/
theorem C34_first (s s' : BR) (h : nextStartCode s = (.ok (), s')) :
    ∃ k, s'.pos = s.pos + padding s.pos + 8 * k ∧
      ∀ j < k, ((fromBoundary s).drop (8 * j)).take 24 ≠ prefix1 := by
  obtain ⟨k, r, hb, rfl⟩ := (C34 s s').mp h
  refine ⟨k, rfl, ?_⟩
  intro j hj he
  have hd : (fromBoundary s).drop (8 * j) = prefix1 ++ ((fromBoundary s).drop (8 * j)).drop 24 := by
    rw [← he, List.take_append_drop]
  have hz : fromBoundary s = zeros (8 * j) ++ (prefix1 ++ ((fromBoundary s).drop (8 * j)).drop 24) := by
    rw [← hd, hb]
    have e : (zeros (8 * k) ++ (prefix1 ++ r)).take (8 * j) = zeros (8 * j) := by
      rw [List.take_append_of_le_length (by simp [zeros]; omega)]
      simp only [zeros, List.take_replicate]; congr 1; omega
    conv => lhs; rw [← List.take_append_drop (8 * j) (zeros (8 * k) ++ (prefix1 ++ r)), e]
  have := zeros_prefix_unique (hb.symm.trans hz)
  omega

/-- **C34** (failures) Otherwise the call fails with `ErrUnexpectedNonZeroByte`, and then a non-zero byte comes
before any start code prefix; or with the end-of-input error, and then only zero bytes and fewer than three more
bytes are left.  It never panics and always returns. -/
theorem C34_fail (s : BR) :
    (∃ s', nextStartCode s = (.ok (), s')) ∨
    (∃ s' k b r, nextStartCode s = (.err .unexpectedNonZeroByte, s') ∧
      fromBoundary s = zeros (8 * k) ++ (b ++ r) ∧ b.length = 8 ∧ b ≠ zeros 8 ∧
      s'.bits = r ∧ s'.pos = s.pos + padding s.pos + 8 * k + 8) ∨
    (∃ s' k r e, nextStartCode s = (.err e, s') ∧ fromBoundary s = zeros (8 * k) ++ r ∧ r.length < 24 ∧
      e = (if r = [] then s.stop else if s.stop = .eof then .unexpectedEOF else s.stop)) := by
  have hr := nextStartCode_result s
  generalize nextStartCode s = x at hr
  cases hr with
  | found k r h => exact .inl ⟨_, rfl⟩
  | nonzero k b r hb hz hl h =>
    refine .inr (.inl ⟨_, k, b, r, rfl, h, hb, hz, ?_, ?_⟩)
    · have h' : (s.adv (padding s.pos)).bits = zeros (8 * k) ++ (b ++ r) := h
      show ((s.adv (padding s.pos)).bits.drop (8 * k + 8)) = r
      rw [h', ← List.append_assoc, List.drop_left' (by simp [zeros, hb])]
    · show s.pos + padding s.pos + (8 * k + 8) = _
      omega
  | ended k r hl h =>
    refine .inr (.inr ⟨_, k, r, _, rfl, h, hl, ?_⟩)
    have h' : (s.adv (padding s.pos)).bits = zeros (8 * k) ++ r := h
    have e : ((s.adv (padding s.pos)).adv (8 * k)).bits = r := by
      show ((s.adv (padding s.pos)).bits.drop (8 * k)) = r
      rw [h', List.drop_left' (by simp [zeros])]
    unfold BR.failErr
    rw [e]
    cases r <;> rfl

/-- five bits into the stream; two zero bytes before the prefix -/
def exNSC : BR := ⟨[true, false, true] ++ zeros 16 ++ prefix1 ++ bitsOf 8 0xB3, 5, .eof, []⟩
example : nextStartCode exNSC = (.ok (), ⟨prefix1 ++ bitsOf 8 0xB3, 24, .eof, []⟩) := by decide +kernel
example : (nextStartCode ⟨zeros 8 ++ bitsOf 8 7 ++ prefix1, 0, .eof, []⟩).1 = .err .unexpectedNonZeroByte := by
  decide +kernel
example : (nextStartCode ⟨zeros 40, 0, .eof, []⟩).1 = .err .unexpectedEOF := by decide +kernel

/-! ### C35 -/

/-- **C35** `AlignTo(code)` stops on the first byte-aligned occurrence of the code, without consuming it, or
fails with the end-of-input error when the stream has none; it never panics and always returns. -/
theorem C35 (code : Nat) (hc : code < 2 ^ 32) (s : BR) :
    (∃ k, alignTo code s = (.ok (), ⟨(fromBoundary s).drop (8 * k), s.pos + padding s.pos + 8 * k, s.stop, s.later⟩) ∧
      ((fromBoundary s).drop (8 * k)).take 32 = bitsOf 32 code ∧
      ∀ j < k, ((fromBoundary s).drop (8 * j)).take 32 ≠ bitsOf 32 code) ∨
    ((∀ j, ((fromBoundary s).drop (8 * j)).take 32 ≠ bitsOf 32 code) ∧
      ∃ s' e, alignTo code s = (.err e, s') ∧ (e = s.stop ∨ e = .unexpectedEOF ∧ s.stop = .eof)) := by
  have hr := alignTo_result code hc s
  generalize alignTo code s = x at hr
  cases hr with
  | found k h first => exact .inl ⟨k, rfl, h, first⟩
  | ended k h none =>
    refine .inr ⟨none, _, _, rfl, ?_⟩
    unfold BR.failErr
    split
    · exact .inl rfl
    · split
      · rename_i he; exact .inr ⟨rfl, he⟩
      · exact .inl rfl

/-- garbage, an unaligned occurrence of the code, then an aligned one -/
def exAlign : BR :=
  ⟨bitsOf 8 0x47 ++ bitsOf 8 0x00 ++ (bitsOf 4 3 ++ bitsOf 32 0x1B3 ++ bitsOf 4 1) ++ bitsOf 32 0x1B3 ++ bitsOf 8 9, 0, .eof, []⟩
example : alignTo 0x1B3 exAlign = (.ok (), ⟨bitsOf 32 0x1B3 ++ bitsOf 8 9, 56, .eof, []⟩) := by decide +kernel
example : (alignTo 0x1B8 exAlign).1 = .err .unexpectedEOF := by decide +kernel

/-! ### C36 -/

section
variable {pos : Nat} {stop : Err} {later : List (List Bool × Err)}

/-- **C36**, parser: every field of every sequence header is reported exactly, and the reader then stands on the
following start code.  The decoder uses the transmitted matrices if they are present and the default ones
otherwise, for luminance and chrominance.

Partial: the 64 bytes of a transmitted matrix end up in the order of transmission, so that `m[v][u]` is byte
`8 v + u`; ISO/IEC 13818-2 transmits them in zigzag order.  See `C36_false`. -/
theorem C36_partial (h : Seq) (hw : h.WF) (t : Tail) (ht : t.OK (pos + (encSeq h).length)) (s : VS)
    (hs : s.br = ⟨encSeq h ++ t.bits, pos, stop, later⟩) :
    ∃ x, sequenceHeader s = (.ok (), { s with
        br := t.after (pos + (encSeq h).length) stop later
        sh := some x
        qm := ⟨h.intra.getD defaultIntra, h.nonIntra.getD defaultNonIntra,
               h.intra.getD defaultIntra, h.nonIntra.getD defaultNonIntra⟩ }) ∧
      x.horizontalSizeValue = h.width ∧ x.verticalSizeValue = h.height ∧ x.aspectRatioInformation = h.aspect ∧
      x.frameRateCode = h.rate ∧ x.bitRateValue = h.bitRate ∧ x.vbvBufferSizeValue = h.vbv ∧
      x.constrainedParametersFlag = h.constrained ∧ x.loadIntra = h.intra.isSome ∧
      x.loadNonIntra = h.nonIntra.isSome ∧ (∀ m, h.intra = some m → x.intra = m) ∧
      (∀ m, h.nonIntra = some m → x.nonIntra = m) := by
  refine ⟨viewSeq h, ?_, rfl, rfl, rfl, rfl, rfl, rfl, rfl, rfl, rfl, ?_, ?_⟩
  · unfold sequenceHeader
    rw [Go.bind_ok (lift_ok (by rw [hs]; exact readSequenceHeader_enc h hw t ht))]
    simp only [Go.modify_apply]
    have e : ∀ (o : Option Mat) (d : Matrix),
        (if o.isSome = true then o.getD zeroMatrix else d) = o.getD d := by
      intro o d; cases o <;> rfl
    have e1 := e h.intra defaultIntra
    have e2 := e h.nonIntra defaultNonIntra
    rw [← e1, ← e2]
    rfl
  · intro m hm; simp [viewSeq, hm]
  · intro m hm; simp [viewSeq, hm]

/-- the default matrices of clause 6.3.11 -/
theorem C36_defaults :
    (List.range 8).map (fun v => (List.range 8).map fun u => Matrix.at defaultIntra v u) =
      [[8, 16, 19, 22, 26, 27, 29, 34], [16, 16, 22, 24, 27, 29, 34, 37], [19, 22, 26, 27, 29, 34, 34, 38],
       [22, 22, 26, 27, 29, 34, 37, 40], [22, 26, 27, 29, 32, 35, 40, 48], [26, 27, 29, 32, 35, 40, 48, 58],
       [26, 27, 29, 34, 38, 46, 56, 69], [27, 29, 35, 38, 46, 56, 69, 83]] ∧
    ∀ v < 8, ∀ u < 8, Matrix.at defaultNonIntra v u = 16 := by
  constructor <;> decide +kernel

/-- 720 x 576 with a transmitted intra matrix -/
def exSeq : Seq := ⟨720, 576, 2, 3, 37500, 112, false, some (List.range 64), none⟩
/-- a decoder on that header -/
def exSeqVS : VS := VS.new ⟨encSeq exSeq ++ Tail.bits ⟨[], 1, bitsOf 8 0xB5⟩, 0, .eof, []⟩

example : exSeq.WF ∧ Tail.OK ⟨[], 1, bitsOf 8 0xB5⟩ (0 + (encSeq exSeq).length) := by decide +kernel

/-- **C36**, as stated, is false: after a sequence header with a transmitted intra matrix the decoder uses another
value for the coefficient in row 0, column 2 than the one transmitted for it. -/
theorem C36_false :
    ∃ (h : Seq) (m : Mat) (t : Tail) (s s' : VS), h.WF ∧ h.intra = some m ∧ t.OK (encSeq h).length ∧
      s.br = ⟨encSeq h ++ t.bits, 0, .eof, []⟩ ∧ sequenceHeader s = (.ok (), s') ∧
      Matrix.at s'.qm.m0 0 2 ≠ m.entry 0 2 := by
  have hw : exSeq.WF := by decide +kernel
  have ht : Tail.OK ⟨[], 1, bitsOf 8 0xB5⟩ (0 + (encSeq exSeq).length) := by decide +kernel
  obtain ⟨x, h1, -⟩ := C36_partial exSeq hw _ ht exSeqVS rfl
  refine ⟨exSeq, List.range 64, ⟨[], 1, bitsOf 8 0xB5⟩, exSeqVS, _, hw, rfl, by simpa using ht, rfl, h1, ?_⟩
  show Matrix.at (List.range 64) 0 2 ≠ Mat.entry (List.range 64) 0 2
  decide +kernel

/-! ### C37 -/

/-- `n` rounded up to a multiple of 16 -/
def IsRoundUp16 (n m : Nat) : Prop := n ≤ m ∧ m < n + 16 ∧ m % 16 = 0

/-- the bits of a sequence header followed by its extension -/
def encBoth (h : Seq) (e : SeqExt) (pad : List Bool) (k : Nat) (t : Tail) : List Bool :=
  encSeq h ++ (pad ++ (zeros (8 * k) ++ (encSeqExt e ++ t.bits)))

theorem encSeqExt_prefix (e : SeqExt) : ∃ r, encSeqExt e = prefix1 ++ r := by
  have : bitsOf 32 0x1B5 = prefix1 ++ bitsOf 8 0xB5 := by decide +kernel
  exact ⟨_, by simp only [encSeqExt, this, List.append_assoc]; rfl⟩

theorem store_ok {α : Type} {m : Go BR α} {put : VS → Option α → VS} {s : VS} {a : α} {b b' : BR}
    (h : m s.br = (.ok a, b)) (hp : (put { s with br := b } (some a)).br = b)
    (hn : nextStartCode b = (.ok (), b')) :
    storeHeader m put s = (.ok (), { put { s with br := b } (some a) with br := b' }) := by
  unfold storeHeader
  rw [lift_ok h]
  exact lift_ok (by rw [hp]; exact hn)

/-- **C37** After any sequence header and sequence extension, `Size()` is the 14 bit size
`extension * 4096 + value` in both directions. -/
theorem C37 (h : Seq) (e : SeqExt) (hw : h.WF) (he : e.WF) (hm : e.marker = true)
    (pad : List Bool) (k : Nat) (hpad : pad.length = padding (pos + (encSeq h).length)) (t : Tail)
    (ht : t.OK (pos + (encSeq h).length + pad.length + 8 * k + 80)) (s : VS)
    (hs : s.br = ⟨encBoth h e pad k t, pos, stop, later⟩) :
    ∃ s', (sequenceHeader >>= fun _ => sequenceExtension) s = (.ok (), s') ∧
      s'.size = (((e.widthExt * 4096 + h.width : Nat) : Int), ((e.heightExt * 4096 + h.height : Nat) : Int)) := by
  obtain ⟨r, hr⟩ := encSeqExt_prefix e
  have hs' : s.br = ⟨encSeq h ++ Tail.bits ⟨pad, k, r ++ t.bits⟩, pos, stop, later⟩ := by
    rw [hs]; simp only [encBoth, Tail.bits, hr, List.append_assoc]
  obtain ⟨x, h1, hx1, hx2, -⟩ := C36_partial h hw ⟨pad, k, r ++ t.bits⟩ hpad s hs'
  rw [Go.bind_ok h1]
  unfold sequenceExtension
  refine ⟨_, store_ok (a := viewSeqExt e) (b := ⟨t.bits, pos + (encSeq h).length + pad.length + 8 * k + 80, stop, later⟩)
    ?_ rfl (nextStartCode_tail t ht), ?_⟩
  · simp only [Tail.after]
    rw [← List.append_assoc, ← hr]
    exact readSequenceExtension_enc e he hm
  · have key : ∀ a b : Nat, a < 2 ^ 12 → a ||| (b <<< 12) = b * 4096 + a := by
      intro a b ha
      rw [Nat.or_comm, ← Nat.shiftLeft_add_eq_or_of_lt ha, Nat.shiftLeft_eq]
    simp only [VS.size, viewSeqExt, hx1, hx2]
    rw [key _ _ hw.1, key _ _ hw.2.1]

/-- **C37** (without extension) `Size()` is (-1, -1) before any sequence header. -/
theorem C37_none (s : VS) (h : s.sh = none) : s.size = (-1, -1) := by unfold VS.size; rw [h]

/-- **C37** (frame buffer) The frame buffer of a picture has both dimensions rounded up to the next multiple of
16, and chroma planes of the matching size for 4:2:0. -/
theorem C37_buffer (w h cf : Nat) :
    ∃ W H, IsRoundUp16 w W ∧ IsRoundUp16 h H ∧ (createFrameBuffer w h cf).yStride = W ∧
      (createFrameBuffer w h cf).y.len = W * H ∧
      (cf = 1 → (createFrameBuffer w h cf).cStride = W / 2 ∧ (createFrameBuffer w h cf).cb.len = W / 2 * (H / 2) ∧
        (createFrameBuffer w h cf).cr.len = W / 2 * (H / 2)) := by
  refine ⟨(w + 15) / 16 * 16, (h + 15) / 16 * 16, ?_, ?_, rfl, rfl, ?_⟩
  · unfold IsRoundUp16; omega
  · unfold IsRoundUp16; omega
  · rintro rfl; exact ⟨rfl, rfl, rfl⟩

/-- 1920 x 1088 signalled with 4:2:0 chroma -/
def exExt : SeqExt := ⟨0x48, 1, 1, 0, 0, 0, true, 0, 0, 0, 0⟩
example : exExt.WF ∧ exExt.marker = true ∧ padding (0 + (encSeq exSeq).length) = 0 ∧
    Tail.OK ⟨[], 0, []⟩ (0 + (encSeq exSeq).length + 0 + 8 * 0 + 80) := by decide +kernel
example : (createFrameBuffer 1920 1080 1).y.len = 1920 * 1088 := by decide

/-! ### C38 -/

/-- **C38** Every field of every sequence extension with a set marker bit is reported exactly. -/
theorem C38 (h : SeqExt) (hw : h.WF) (hm : h.marker = true) (t : Tail) (ht : t.OK (pos + (encSeqExt h).length))
    (s : VS) (hs : s.br = ⟨encSeqExt h ++ t.bits, pos, stop, later⟩) :
    ∃ x, sequenceExtension s =
        (.ok (), { s with br := t.after (pos + (encSeqExt h).length) stop later, se := some x }) ∧
      x.profileAndLevel = h.profile ∧ x.progressiveSequence = h.progressive ∧ x.chromaFormat = h.chroma ∧
      x.horizontalSizeExtension = h.widthExt ∧ x.verticalSizeExtension = h.heightExt ∧
      x.bitRateExtension = h.bitRateExt ∧ x.vbvBufferSizeExtension = h.vbvExt ∧ x.lowDelay = h.lowDelay ∧
      x.frameRateExtensionN = h.rateN ∧ x.frameRateExtensionD = h.rateD := by
  refine ⟨viewSeqExt h, ?_, rfl, rfl, rfl, rfl, rfl, rfl, rfl, rfl, rfl, rfl⟩
  rw [length_encSeqExt] at ht ⊢
  exact store_ok (by rw [hs]; exact readSequenceExtension_enc h hw hm) rfl (nextStartCode_tail t ht)

/-- **C38** (marker) A sequence extension whose marker bit is zero is rejected with `ErrMissingMarkerBit`, and no
extension is stored. -/
theorem C38_marker (h : SeqExt) (hm : h.marker = false) (r : List Bool) (s : VS)
    (hs : s.br = ⟨encSeqExt h ++ r, pos, stop, later⟩) :
    (sequenceExtension s).1 = .err .missingMarkerBit ∧ (sequenceExtension s).2.se = none := by
  have h1 : (readSequenceExtension s.br).1 = .err .missingMarkerBit := by
    rw [hs]; exact readSequenceExtension_marker h hm
  have h2 : VS.lift readSequenceExtension s =
      (.err .missingMarkerBit, { s with br := (readSequenceExtension s.br).2 }) := by
    unfold VS.lift; rw [h1]
  unfold sequenceExtension storeHeader
  rw [h2]
  exact ⟨rfl, rfl⟩

example : (exExt.WF ∧ exExt.marker = true ∧ Tail.OK ⟨[], 2, [true]⟩ (0 + (encSeqExt exExt).length)) ∧
    { exExt with marker := false }.marker = false := by decide +kernel

/-! ### C39 -/

/-- **C39** Time code, `closed_gop` and `broken_link` of every group of pictures header are reported exactly. -/
theorem C39 (h : GOP) (hw : h.WF) (t : Tail) (ht : t.OK (pos + (encGOP h).length)) :
    ∃ x, readGOPHeader ⟨encGOP h ++ t.bits, pos, stop, later⟩ =
        (.ok x, t.after (pos + (encGOP h).length) stop later) ∧
      x.time.dropFrame = h.dropFrame ∧ x.time.hours = h.hours ∧ x.time.minutes = h.minutes ∧
      x.time.seconds = h.seconds ∧ x.time.pictures = h.pictures ∧ x.closedGOP = h.closed ∧ x.brokenLink = h.broken := by
  refine ⟨_, readGOPHeader_enc h hw t ht, ?_⟩
  rw [time_eq h hw]
  exact ⟨rfl, rfl, rfl, rfl, rfl, rfl, rfl⟩

/-- 23:59:58:24, drop frame -/
def exGOP : GOP := ⟨true, 23, 59, true, 58, 24, true, false⟩
example : exGOP.WF ∧ Tail.OK ⟨[false, true, false, true, true], 1, bitsOf 8 0⟩ (0 + (encGOP exGOP).length) := by
  decide +kernel

/-! ### C40 -/

/-- the P/B vector fields of a picture: full pel and f_code, forward then backward; 0 where absent -/
def vectorFields : PicKind → Nat × Nat × Nat × Nat
  | .other _ => (0, 0, 0, 0)
  | .p a b => (a, b, 0, 0)
  | .b a b c d => (a, b, c, d)

/-- **C40** Every field of every picture header is reported exactly, including any number of extra information
bytes. -/
theorem C40 (h : Pic) (hw : h.WF) (t : Tail) (ht : t.OK (pos + (encPic h).length)) (s : VS)
    (hs : s.br = ⟨encPic h ++ t.bits, pos, stop, later⟩) :
    ∃ x, pictureHeader s = (.ok (), { s with br := t.after (pos + (encPic h).length) stop later, ph := some x }) ∧
      x.temporalReference = h.temporal ∧ x.pictureCodingType = h.kind.code ∧ x.vbvDelay = h.vbvDelay ∧
      (x.fullPelForwardVector, x.forwardFCode, x.fullPelBackwardVector, x.backwardFCode) = vectorFields h.kind ∧
      x.extraInformation = h.extra := by
  refine ⟨viewPic h, ?_, ?_⟩
  · exact store_ok (by rw [hs]; exact readPictureHeader_enc h hw) rfl (nextStartCode_tail t ht)
  · obtain ⟨tr, kind, vbv, extra⟩ := h
    cases kind <;> exact ⟨rfl, rfl, rfl, rfl, rfl⟩

/-- a B picture with two bytes of extra information -/
def exPic : Pic := ⟨5, .b 0 7 1 3, 0xFFFF, [1, 255]⟩
example : exPic.WF ∧ Tail.OK ⟨List.replicate (padding (encPic exPic).length) true, 0, []⟩ (0 + (encPic exPic).length) := by decide +kernel

/-! ### C41 -/

/-- **C41** Every field of every picture coding extension is reported exactly; `f_code[s][t]` are the four
transmitted codes and the composite display fields are those of the block if there is one. -/
theorem C41 (h : PicExt) (hw : h.WF) (t : Tail) (ht : t.OK (pos + (encPicExt h).length)) (s : VS)
    (hs : s.br = ⟨encPicExt h ++ t.bits, pos, stop, later⟩) :
    ∃ x, pictureCodingExtension s =
        (.ok (), { s with br := t.after (pos + (encPicExt h).length) stop later, pce := some x }) ∧
      x.fCode 0 0 = h.f00 ∧ x.fCode 0 1 = h.f01 ∧ x.fCode 1 0 = h.f10 ∧ x.fCode 1 1 = h.f11 ∧
      x.intraDCPrecision = h.dcPrecision ∧ x.pictureStructure = h.structure_ ∧ x.topFieldFirst = h.topFieldFirst ∧
      x.framePredFrameDCT = h.framePredFrameDCT ∧ x.concealmentMotionVectors = h.concealment ∧
      x.qScaleType = h.qScaleType ∧ x.intraVLCFormat = h.intraVLC ∧ x.alternateScan = h.alternateScan ∧
      x.repeatFirstField = h.repeatFirstField ∧ x.chroma420Type = h.chroma420 ∧ x.progressiveFrame = h.progressive ∧
      x.compositeDisplayFlag = h.composite.isSome ∧
      (∀ c, h.composite = some c → x.vAxis = c.vAxis ∧ x.fieldSequence = c.fieldSequence ∧
        x.subCarrier = c.subCarrier ∧ x.burstAmplitude = c.burstAmplitude ∧ x.subCarrierPhase = c.subCarrierPhase) := by
  refine ⟨viewPicExt h, ?_, rfl, rfl, rfl, rfl, rfl, rfl, rfl, rfl, rfl, rfl, rfl, rfl, rfl, rfl, rfl, rfl, ?_⟩
  · exact store_ok (by rw [hs]; exact readPictureCodingExtension_enc h hw) rfl (nextStartCode_tail t ht)
  · intro c hc; simp [viewPicExt, hc]

def exPicExt : PicExt :=
  ⟨2, 3, 15, 1, 2, 3, true, 1, false, 1, 0, 1, false, true, true, some ⟨true, 5, false, 100, 200⟩⟩
example : exPicExt.WF := by
  refine ⟨by decide, by decide, by decide, by decide, by decide, by decide, by decide, by decide, by decide,
    by decide, ?_⟩
  intro c hc; cases hc; decide
example : Tail.OK ⟨List.replicate (padding (encPicExt exPicExt).length) true, 1, []⟩ (0 + (encPicExt exPicExt).length) := by decide +kernel

/-! ### C42 -/

/-- **C42**, after sequence headers (`i = 0`) and picture headers (`i = 2`): the loops over extension and user data
end on every stream, whatever is in it, and never extend the unread input.

Partial: false after group of pictures headers (`i = 1`), see `C42_false` and `C42_group`. -/
theorem C42_partial (i : Nat) (hi : i ≠ 1) (s : VS) (fuel : Nat) (hf : s.br.size + 2 ≤ fuel) :
    (extensionAndUserData i fuel s).1 ≠ .hang ∧ (extensionAndUserData i fuel s).2.br.size ≤ s.br.size :=
  extUser_term i hi fuel s hf

/-- **C42** is false: an extension start code after a group of pictures header makes the decoder loop forever (the
model runs out of any amount of fuel without having consumed anything). -/
theorem C42_false :
    ∃ s : VS, s.br = ⟨bitsOf 32 0x1B5 ++ bitsOf 8 0, 0, .eof, []⟩ ∧
      ∀ fuel, extensionAndUserData 1 fuel s = (.hang, s) :=
  ⟨VS.new ⟨bitsOf 32 0x1B5 ++ bitsOf 8 0, 0, .eof, []⟩, rfl, fun fuel =>
    extUser_one_spin fuel _ (by decide +kernel) (by decide +kernel)⟩

theorem extUser_one : ∀ (f : Nat) (s s' : VS), s.br.size + 2 ≤ f → extensionAndUserData 1 f s = (.hang, s') →
    s'.br.bits.take 32 = bitsOf 32 0x1B5 ∧ ∀ g, extensionAndUserData 1 g s' = (.hang, s')
  | 0, s, s', h, _ => absurd h (by omega)
  | f + 1, s, s', h, he => by
    by_cases h1 : s.br.bits.length < 32
    · have e : VS.lift (BR.peek 32) s = (.err s.br.failErr, { s with br := s.br.failTo }) := by
        unfold VS.lift; rw [BR.peek_short h1]
      rw [extensionAndUserData, Go.bind_err e] at he
      cases he
    · by_cases hc : natOfBits (s.br.bits.take 32) = extensionStartCode
      · have hs := extUser_one_spin (f + 1) s (by omega) hc
        rw [hs] at he
        cases he
        refine ⟨?_, fun g => extUser_one_spin g s (by omega) hc⟩
        rw [show (0x1B5 : Nat) = extensionStartCode from rfl, ← hc,
          bitsOf_natOfBits' (by rw [List.length_take]; omega)]
      · rw [extensionAndUserData, Go.bind_ok (lift_ok (BR.peek_ok (by omega))), if_neg hc] at he
        split at he
        · rename_i hu
          have hlt := userData_dec s (by omega) hu
          have hs := safe_vlift safe_userData s
          rw [Go.bind_apply] at he
          cases hm : VS.lift userData s with
          | mk r s1 =>
            rw [hm] at hlt hs he
            cases r with
            | ok u =>
              have hlt' : s1.br.size < s.br.size := hlt
              exact extUser_one f s1 s' (by omega) he
            | err e => cases he
            | panic => cases he
            | hang => exact absurd rfl hs.2
        · cases he

/-- **C42**, after group of pictures headers: the only way not to terminate is to reach an extension start code
(and then the decoder does loop forever). -/
theorem C42_group (s s' : VS) (fuel : Nat) (hf : s.br.size + 2 ≤ fuel)
    (h : extensionAndUserData 1 fuel s = (.hang, s')) :
    s'.br.bits.take 32 = bitsOf 32 0x1B5 ∧ ∀ g, extensionAndUserData 1 g s' = (.hang, s') :=
  extUser_one fuel s s' hf h

/-- a stream with user data and a display extension -/
def exUserVS : VS := VS.new ⟨encUser [1, 2, 3, 0] ++ (bitsOf 32 0x1B5 ++ bitsOf 4 2 ++ zeros 60), 0, .eof, []⟩
example : exUserVS.br.size + 2 ≤ 162 := by decide +kernel

/-! ### C43 -/

/-- **C43** After a quant matrix extension each of the four active matrices is the most recently transmitted one
that applies to it (a luminance matrix also applies to chrominance), and keeps its value when none was
transmitted. -/
theorem C43 (h : QExt) (hw : h.WF) (t : Tail) (ht : t.OK (pos + (encQExt h).length)) (s : VS)
    (hs : s.br = ⟨encQExt h ++ t.bits, pos, stop, later⟩) :
    ∃ q, quantMatrixExtension s = (.ok (), { s with br := t.after (pos + (encQExt h).length) stop later, qm := q }) ∧
      q.m0 = latest s.qm.m0 [h.intra] ∧ q.m1 = latest s.qm.m1 [h.nonIntra] ∧
      q.m2 = latest s.qm.m2 [h.intra, h.chromaIntra] ∧ q.m3 = latest s.qm.m3 [h.nonIntra, h.chromaNonIntra] :=
  quantMatrixExtension_enc h hw s t ht hs

/-- an intra and a chroma non-intra matrix -/
def exQExt : QExt := ⟨some (List.range 64), none, none, some (List.replicate 64 99)⟩
example : exQExt.WF ∧ Tail.OK ⟨List.replicate (padding (encQExt exQExt).length) true, 0, bitsOf 8 1⟩ (0 + (encQExt exQExt).length) := by
  decide +kernel

/-! ### C68 user data -/

/-- **C68** `user_data` returns exactly the bytes up to the next byte-aligned start code prefix and stops on that
prefix, for any user data that contains no prefix itself. -/
theorem C68 (d : List Nat) (hd : ∀ x ∈ d, x < 256) (r : List Bool) (hp : pos % 8 = 0)
    (hn : ∀ j < d.length, ((d.flatMap (bitsOf 8) ++ (prefix1 ++ r)).drop (8 * j)).take 24 ≠ prefix1) :
    userData ⟨encUser d ++ (prefix1 ++ r), pos, stop, later⟩ =
      (.ok d, ⟨prefix1 ++ r, pos + (encUser d).length, stop, later⟩) :=
  userData_enc d hd hn hp

example : ∀ j < [1, 2, 0, 0].length,
    ((([1, 2, 0, 0] : List Nat).flatMap (bitsOf 8) ++ (bitsOf 24 7 ++ [true])).drop (8 * j)).take 24 ≠ prefix1 := by
  decide +kernel

/-! ### C66 -/

/-- **C66** The parsers of the headers never panic and always return, on every input. -/
theorem C66 : Go.Safe sequenceHeader ∧ Go.Safe sequenceExtension ∧ Go.Safe readGOPHeader ∧ Go.Safe pictureHeader ∧
    Go.Safe pictureCodingExtension ∧ Go.Safe quantMatrixExtension ∧ Go.Safe userData ∧
    Go.Safe readSequenceDisplayExtension ∧ Go.Safe readPictureTemporalScalableExtension :=
  ⟨safe_sequenceHeader, safe_storeHeader safe_readSequenceExtension, safe_readGOPHeader,
   safe_storeHeader safe_readPictureHeader, safe_storeHeader safe_readPictureCodingExtension, safe_quant,
   safe_userData, safe_display, safe_temporal⟩

end

end Mpeg.Video
