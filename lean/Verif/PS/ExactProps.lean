/-
C105: exactly which pack headers are accepted.
-/
import Verif.PS.AcceptProps
import Verif.PS.Props
namespace Mpeg.PS
open Spec

/-- A system header with any value in the header_length field. -/
def Spec.encSysLen (hl : Nat) (s : Sys) : List Bool :=
  bitsOf 32 0x1bb ++ bitsOf 16 hl ++ [true] ++ bitsOf 22 s.rateBound ++ [true] ++ bitsOf 6 s.audioBound ++
  [s.fixed, s.csps, s.audioLock, s.videoLock, true] ++ bitsOf 5 s.videoBound ++ [s.packetRateRestriction] ++
  bitsOf 7 s.reserved ++ s.streams.flatMap encEntry

theorem encSysLen_len (s : Sys) : encSysLen s.len s = encSys s := rfl

/-- the fields fit; nothing about header_length -/
def Spec.Sys.Fits (s : Sys) : Prop :=
  s.rateBound < 2 ^ 22 ∧ s.audioBound < 2 ^ 6 ∧ s.videoBound < 2 ^ 5 ∧ s.reserved < 2 ^ 7 ∧ ∀ e ∈ s.streams, e.WF

section forward
variable {r : List Bool} {pos : Nat} {stop : Err} {later : List (List Bool × Err)}

theorem readSystemHeader_len (hl : Nat) (s : Sys) (h : s.Fits) (hhl : hl < 2 ^ 16) :
    readSystemHeader ⟨encSysLen hl s ++ (false :: r), pos, stop, later⟩ =
      (.ok { viewSys s with headerLength := hl }, ⟨false :: r, pos + 96 + 24 * s.streams.length, stop, later⟩) := by
  obtain ⟨h1, h2, h3, h4, h5⟩ := h
  simp only [readSystemHeader, encSysLen, List.append_assoc, List.cons_append, List.nil_append, Go.bind_apply,
    BR.read_bitsOf, BR.skip_bitsOf, marker_one, BR.read1_cons, readStreams_enc _ h5, Go.pure_apply]
  rw [Nat.mod_eq_of_lt hhl, Nat.mod_eq_of_lt h1, Nat.mod_eq_of_lt h3]
  rfl

end forward

/-! ### from a successful run to the bits -/

theorem readStream_bits {x : Stream} {s s' : BR} (h : readStream s = (.ok x, s')) :
    BR.Took s (encEntry ⟨x.streamID, x.boundScale, x.sizeBound⟩) s' ∧ x.streamID < 256 ∧ x.sizeBound < 2 ^ 13 := by
  unfold readStream at h
  obtain ⟨id, s1, h1, h⟩ := Go.bind_eq_ok h
  obtain ⟨_, s2, h2, h⟩ := Go.bind_eq_ok h
  obtain ⟨sc, s3, h3, h⟩ := Go.bind_eq_ok h
  obtain ⟨sz, s4, h4, h⟩ := Go.bind_eq_ok h
  simp only [Go.pure_apply, Prod.mk.injEq, Res.ok.injEq] at h
  obtain ⟨rfl, rfl⟩ := h
  obtain ⟨t1, b1⟩ := read_inv_bits h1
  obtain ⟨t4, b4⟩ := read_inv_bits h4
  refine ⟨?_, b1, b4⟩
  have := t1.trans ((marker_inv h2).trans ((BR.read1_inv h3).trans t4))
  simpa only [encEntry, List.append_assoc] using this

theorem streamsLoop_bits : ∀ (f : Nat) {l : List Stream} {s s' : BR}, streamsLoop f s = (.ok l, s') →
    ∃ es : List Entry, (∀ e ∈ es, e.WF) ∧ es.map viewEntry = l ∧ BR.Took s (es.flatMap encEntry) s' ∧
      s'.bits.head? = some false := by
  intro f
  induction f with
  | zero => intro l s s' h; cases h
  | succ f ih =>
    intro l s s' h
    rw [streamsLoop] at h
    obtain ⟨b, s1, h1, h2⟩ := Go.bind_eq_ok h
    clear h
    have h := h2
    clear h2
    obtain ⟨rfl, hl, hb⟩ := BR.peek_inv h1
    obtain ⟨c, r, hbits⟩ : ∃ c r, s1.bits = c :: r := by
      cases hs : s1.bits with
      | nil => rw [hs] at hl; simp at hl
      | cons c r => exact ⟨c, r, rfl⟩
    have hbv : b = c.toNat := by rw [hb, hbits]; cases c <;> rfl
    by_cases hb1 : b = 1
    · rw [if_pos hb1] at h
      obtain ⟨x, s2, h2, h⟩ := Go.bind_eq_ok h
      obtain ⟨l', s3, h3, h⟩ := Go.bind_eq_ok h
      simp only [Go.pure_apply, Prod.mk.injEq, Res.ok.injEq] at h
      obtain ⟨rfl, rfl⟩ := h
      obtain ⟨t, w1, w2⟩ := readStream_bits h2
      obtain ⟨es, we, em, te, hd⟩ := ih h3
      have hc : c = true := by
        cases c
        · exact absurd (hbv.symm.trans hb1) (by decide)
        · rfl
      have hid : 128 ≤ x.streamID := by
        have e := t.bits
        rw [hbits, encEntry] at e
        simp only [List.append_assoc] at e
        have e2 : (bitsOf 8 x.streamID).head? = some true := by
          have : (bitsOf 8 x.streamID ++ (bitsOf 2 3 ++ ([x.boundScale] ++ (bitsOf 13 x.sizeBound ++ s2.bits)))).head? = some c := by
            rw [← e]; rfl
          rw [List.head?_append] at this
          rw [hc] at this
          cases hh : (bitsOf 8 x.streamID).head? with
          | none => simp [bitsOf] at hh
          | some y => rw [hh] at this; exact this
        have e3 : (bitsOf 8 x.streamID).head? = some (x.streamID.testBit 7) := by
          simp [bitsOf]
        rw [e3] at e2
        have := Nat.ge_two_pow_of_testBit (by simpa using e2 : x.streamID.testBit 7 = true)
        simpa using this
      refine ⟨⟨x.streamID, x.boundScale, x.sizeBound⟩ :: es, ?_, ?_, ?_, hd⟩
      · intro e he
        rcases List.mem_cons.1 he with rfl | he
        · exact ⟨hid, w1, w2⟩
        · exact we e he
      · simp only [List.map_cons, em, viewEntry]
      · rw [List.flatMap_cons]; exact t.trans te
    · rw [if_neg hb1] at h
      simp only [Go.pure_apply, Prod.mk.injEq, Res.ok.injEq] at h
      obtain ⟨rfl, rfl⟩ := h
      refine ⟨[], fun e he => absurd he List.not_mem_nil, rfl, BR.Took.refl _, ?_⟩
      rw [hbits]
      cases c
      · rfl
      · exact absurd hbv hb1

theorem readSystemHeader_bits {x : SystemHeader} {s s' : BR} (hc : s.bits.take 32 = bitsOf 32 0x1bb)
    (h : readSystemHeader s = (.ok x, s')) :
    ∃ (hl : Nat) (y : Sys), hl < 2 ^ 16 ∧ y.Fits ∧ x = { viewSys y with headerLength := hl } ∧
      BR.Took s (encSysLen hl y) s' ∧ s'.bits.head? = some false := by
  unfold readSystemHeader at h
  obtain ⟨_, s1, h1, h⟩ := Go.bind_eq_ok h
  obtain ⟨hl, s2, h2, h⟩ := Go.bind_eq_ok h
  obtain ⟨_, s3, h3, h⟩ := Go.bind_eq_ok h
  obtain ⟨rb, s4, h4, h⟩ := Go.bind_eq_ok h
  obtain ⟨_, s5, h5, h⟩ := Go.bind_eq_ok h
  obtain ⟨ab, s6, h6, h⟩ := Go.bind_eq_ok h
  obtain ⟨fx, s7, h7, h⟩ := Go.bind_eq_ok h
  obtain ⟨cs, s8, h8, h⟩ := Go.bind_eq_ok h
  obtain ⟨al, s9, h9, h⟩ := Go.bind_eq_ok h
  obtain ⟨vl, s10, h10, h⟩ := Go.bind_eq_ok h
  obtain ⟨_, s11, h11, h⟩ := Go.bind_eq_ok h
  obtain ⟨vb, s12, h12, h⟩ := Go.bind_eq_ok h
  obtain ⟨pr, s13, h13, h⟩ := Go.bind_eq_ok h
  obtain ⟨_, s14, h14, h⟩ := Go.bind_eq_ok h
  obtain ⟨st, s15, h15, h⟩ := Go.bind_eq_ok h
  simp only [Go.pure_apply, Prod.mk.injEq, Res.ok.injEq] at h
  obtain ⟨rfl, rfl⟩ := h
  obtain ⟨l1, t1, e1⟩ := BR.skip_inv h1
  obtain ⟨l14, t14, e14⟩ := BR.skip_inv h14
  have hl1 : l1 = bitsOf 32 0x1bb := by
    rw [← hc, t1.bits, List.take_append_of_le_length (by omega), List.take_of_length_le (by omega)]
  obtain ⟨t2, b2⟩ := read_inv_bits h2
  obtain ⟨t4, b4⟩ := read_inv_bits h4
  obtain ⟨t6, b6⟩ := read_inv_bits h6
  obtain ⟨t12, b12⟩ := read_inv_bits h12
  obtain ⟨es, we, em, te, hd⟩ := streamsLoop_bits _ h15
  refine ⟨hl, { rateBound := rb, audioBound := ab, fixed := fx, csps := cs, audioLock := al, videoLock := vl,
                videoBound := vb, packetRateRestriction := pr, reserved := natOfBits l14, streams := es }, b2,
    ⟨b4, b6, b12, e14 ▸ natOfBits_lt l14, we⟩, ?_, ?_, hd⟩
  · simp only [viewSys, em]
  · have t := t1.trans (t2.trans ((marker_inv h3).trans (t4.trans ((marker_inv h5).trans (t6.trans
      ((BR.read1_inv h7).trans ((BR.read1_inv h8).trans ((BR.read1_inv h9).trans ((BR.read1_inv h10).trans
      ((marker_inv h11).trans (t12.trans ((BR.read1_inv h13).trans (t14.trans te)))))))))))))
    unfold encSysLen
    rw [hl1] at t
    rw [bitsOf_natOfBits' e14]
    simpa only [List.append_assoc, List.cons_append, List.nil_append, show bitsOf 1 1 = [true] from rfl] using t

/-- if the source has no further segment, skipping stuffing that is not there leaves nothing to read -/
theorem skipStuffing_bits : ∀ (n : Nat) {s s' : BR}, skipStuffing n s = (.ok (), s') → s.later = [] → 0 < s'.bits.length →
    ∃ d : List UInt8, d.length = n ∧ BR.Took s (bitsOfBytes d) s'
  | 0, s, s', h, _, _ => by
    cases h
    exact ⟨[], rfl, BR.Took.refl _⟩
  | n + 1, s, s', h, hl, hp => by
    rw [skipStuffing] at h
    by_cases h8 : 8 ≤ s.bits.length
    · have h1 : Go.ignoreErr (BR.skip 8) s = (.ok (), s.adv 8) := by
        simp [Go.ignoreErr, BR.skip, h8]
      rw [Go.bind_ok h1] at h
      obtain ⟨d, e, t⟩ := skipStuffing_bits n h hl hp
      have hlen : (s.bits.take 8).length = 8 := by rw [List.length_take]; omega
      refine ⟨UInt8.ofNat (natOfBits (s.bits.take 8)) :: d, by rw [List.length_cons, e], ?_⟩
      rw [bitsOfBytes_cons]
      have hb : bitsOf 8 (UInt8.ofNat (natOfBits (s.bits.take 8))).toNat = s.bits.take 8 := by
        have := natOfBits_lt (s.bits.take 8)
        rw [hlen] at this
        rw [UInt8.toNat_ofNat', Nat.mod_eq_of_lt this, bitsOf_natOfBits' hlen]
      rw [hb]
      exact (BR.took_adv h8).trans t
    · exfalso
      have h1 : Go.ignoreErr (BR.skip 8) s = (.ok (), s.failTo) := by
        simp [Go.ignoreErr, BR.skip, h8]
      rw [Go.bind_ok h1] at h
      have : ∀ (m : Nat) (t t' : BR), skipStuffing m t = (.ok (), t') → t.later = [] → t.bits = [] → t'.bits = [] := by
        intro m
        induction m with
        | zero => intro t t' h _ hb; cases h; exact hb
        | succ m ih =>
          intro t t' h hl hb
          rw [skipStuffing] at h
          have h1 : Go.ignoreErr (BR.skip 8) t = (.ok (), t.failTo) := by
            simp [Go.ignoreErr, BR.skip, hb]
          rw [Go.bind_ok h1] at h
          exact ih _ _ h (by simp [BR.failTo, hl]) (by simp [BR.failTo, hl])
      have := this n _ _ h (by simp [BR.failTo, hl]) (by simp [BR.failTo, hl])
      rw [this] at hp
      simp at hp

/-- A pack header with any value in the header_length field of its system header. -/
def Spec.encPHdrLen (hl : Nat) (h : PHdr) : List Bool :=
  encPHdrFixed h ++ (match h.system with
    | none => []
    | some y => encSysLen hl y)

/-- the fields fit; nothing about header_length -/
def Spec.PHdr.Fits (h : PHdr) : Prop :=
  h.scrBase < 2 ^ 33 ∧ h.scrExt < 2 ^ 9 ∧ h.muxRate < 2 ^ 22 ∧ h.reserved < 2 ^ 5 ∧ h.stuffing.length < 8 ∧
  ∀ y ∈ h.system, y.Fits

/-- what is reported of it: the values, the base modulo 2^32, the video bound as audio bound (C28, C29) -/
def seen (hl : Nat) (h : PHdr) : PackHeader :=
  { viewFixed h with system := h.system.map fun y => { viewSys y with headerLength := hl } }

theorem length_encSysLen (hl : Nat) (s : Sys) : (encSysLen hl s).length = 96 + 24 * s.streams.length := by
  simp only [encSysLen, List.length_append, length_bitsOf, List.length_cons, List.length_nil, length_entries]

theorem newPackHeader_len (hl : Nat) (h : PHdr) (hw : h.Fits) (hhl : hl < 2 ^ 16) {r : List Bool} (ha : After h r) {pos : Nat}
    {stop : Err} {later : List (List Bool × Err)} :
    newPackHeader ⟨encPHdrLen hl h ++ r, pos, stop, later⟩ =
      (.ok (seen hl h), ⟨r, pos + (encPHdrLen hl h).length, stop, later⟩) := by
  have hf : ∀ (r : List Bool), readPackFixed ⟨encPHdrFixed h ++ r, pos, stop, later⟩ =
      (.ok (viewFixed h), ⟨r, pos + 112 + 8 * h.stuffing.length, stop, later⟩) := by
    intro r
    exact readPackFixed_enc { h with system := none } ⟨hw.1, hw.2.1, hw.2.2.1, hw.2.2.2.1, hw.2.2.2.2.1, by simp⟩
  have hr := follows_of_after ha
  unfold newPackHeader
  cases hs : h.system with
  | none =>
    simp only [Follows, hs] at hr
    obtain ⟨v, r', hv, hne, rfl⟩ := hr
    simp only [encPHdrLen, hs, List.append_nil]
    rw [Go.bind_ok (hf _), Go.bind_ok (codeCheck_bits 32 _ hv), beq_eq_false_iff_ne.mpr hne]
    simp only [seen, hs, length_encPHdrFixed, Option.map_none]
    rw [← Nat.add_assoc]
    rfl
  | some s =>
    simp only [Follows, hs] at hr
    obtain ⟨r', rfl⟩ := hr
    have hws : s.Fits := hw.2.2.2.2.2 s hs
    have hc : ∀ pos, codeCheck 32 systemHeaderStartCode ⟨encSysLen hl s ++ (false :: r'), pos, stop, later⟩ =
        (.ok true, ⟨encSysLen hl s ++ (false :: r'), pos, stop, later⟩) := by
      intro pos
      simp only [encSysLen, List.append_assoc]
      exact codeCheck_bits 32 _ (by decide)
    simp only [encPHdrLen, hs, List.append_assoc]
    rw [Go.bind_ok (hf _), Go.bind_ok (hc _)]
    have hm : ∀ pos, (some <$> readSystemHeader) ⟨encSysLen hl s ++ (false :: r'), pos, stop, later⟩ =
        (.ok (some { viewSys s with headerLength := hl }), ⟨false :: r', pos + 96 + 24 * s.streams.length, stop, later⟩) := by
      intro pos
      rw [Go.map_apply, readSystemHeader_len hl s hws hhl]
    rw [show (Go.opt true none (some <$> readSystemHeader) : Go BR _) = some <$> readSystemHeader from rfl,
      Go.bind_ok (hm _), Go.pure_apply]
    simp only [seen, hs, Option.map_some, List.length_append, length_encPHdrFixed, length_encSysLen,
      Prod.mk.injEq, BR.mk.injEq, true_and, and_true]
    omega

theorem newPackHeader_bits {x : PackHeader} {s s' : BR} (hl : s.later = []) (h : newPackHeader s = (.ok x, s')) :
    ∃ (n : Nat) (y : PHdr), n < 2 ^ 16 ∧ y.Fits ∧ s.bits = encPHdrLen n y ++ s'.bits ∧ After y s'.bits := by
  unfold newPackHeader at h
  obtain ⟨f, s1, h1, h⟩ := Go.bind_eq_ok h
  obtain ⟨c, s2, h2, h⟩ := Go.bind_eq_ok h
  obtain ⟨o, s3, h3, h⟩ := Go.bind_eq_ok h
  simp only [Go.pure_apply, Prod.mk.injEq, Res.ok.injEq] at h
  obtain ⟨_, rfl⟩ := h
  unfold codeCheck at h2
  obtain ⟨v, s0, h0, hq⟩ := Go.bind_eq_ok h2
  obtain ⟨rfl, hp, hv⟩ := BR.peek_inv h0
  simp only [Go.pure_apply, Prod.mk.injEq, Res.ok.injEq] at hq
  obtain ⟨rfl, rfl⟩ := hq
  obtain ⟨base, ext, rate, res, n, sf, b1, b2, b3, b4, b5, t, hst⟩ := readPackFixed_inv h1
  obtain ⟨d, e, td⟩ := skipStuffing_bits n hst (t.later.trans hl) (by omega)
  have tk : BR.Took s (encPHdrFixed ⟨base, ext, rate, res, d, none⟩) s0 := by
    have := t.trans td
    rw [← e] at this
    exact this
  have hb32 : bitsOf 32 v = s0.bits.take 32 := by
    rw [hv, bitsOf_natOfBits' (by rw [List.length_take]; omega)]
  by_cases hc : v = systemHeaderStartCode
  · have hc' : (v == systemHeaderStartCode) = true := by simpa using hc
    rw [hc', Go.opt_true, Go.map_apply] at h3
    cases hm : readSystemHeader s0 with
    | mk r b =>
      rw [hm] at h3
      cases r with
      | ok z =>
        simp only [Prod.mk.injEq, Res.ok.injEq] at h3
        obtain ⟨_, rfl⟩ := h3
        obtain ⟨hl2, y, w1, w2, _, t2, hd⟩ := readSystemHeader_bits (by rw [← hb32, hc]) hm
        refine ⟨hl2, ⟨base, ext, rate, res, d, some y⟩, w1, ⟨b1, b2, b3, b4, by show d.length < 8; omega, ?_⟩, ?_, ?_, ?_⟩
        · intro y' hy; cases hy; exact w2
        · exact (tk.trans t2).bits
        · intro hn; cases hn
        · intro _; exact hd
      | err e => cases h3
      | panic => cases h3
      | hang => cases h3
  · have hc' : (v == systemHeaderStartCode) = false := by simpa using hc
    rw [hc', Go.opt_false] at h3
    simp only [Go.pure_apply, Prod.mk.injEq, Res.ok.injEq] at h3
    obtain ⟨_, rfl⟩ := h3
    refine ⟨0, ⟨base, ext, rate, res, d, none⟩, by decide, ⟨b1, b2, b3, b4, by show d.length < 8; omega, ?_⟩, ?_, ?_, ?_⟩
    · intro y' hy; cases hy
    · have := tk.bits
      rw [this]
      simp [encPHdrLen, encPHdrFixed]
    · intro _
      refine ⟨hp, ?_⟩
      rw [← hb32]
      intro hh
      apply hc
      have := congrArg natOfBits hh
      rw [natOfBits_bitsOf_of_lt, natOfBits_bitsOf_of_lt (by decide)] at this
      · exact this
      · rw [hv]
        have := natOfBits_lt (s0.bits.take 32)
        rw [List.length_take] at this
        rwa [Nat.min_eq_left hp] at this
    · intro hn; exact absurd rfl hn

/-- **C105** (exactly): on a source that has no further segment, `NewPackHeader` succeeds exactly if the input begins with a
pack header of the standard but for the header_length of the system header, which may have any value, and the values of the
stuffing bytes; what is reported and consumed is as given. -/
theorem C105_exact {x : PackHeader} {s s' : BR} (hl : s.later = []) :
    newPackHeader s = (.ok x, s') ↔
      ∃ (n : Nat) (h : PHdr), n < 2 ^ 16 ∧ h.Fits ∧ BR.Took s (encPHdrLen n h) s' ∧ After h s'.bits ∧ x = seen n h := by
  have key : ∀ (n : Nat) (h : PHdr), n < 2 ^ 16 → h.Fits → s.bits = encPHdrLen n h ++ s'.bits → After h s'.bits →
      newPackHeader s = (.ok (seen n h), ⟨s'.bits, s.pos + (encPHdrLen n h).length, s.stop, s.later⟩) := by
    intro n h h1 h2 h3 h4
    have e : s = ⟨encPHdrLen n h ++ s'.bits, s.pos, s.stop, s.later⟩ := by
      cases s; simp only at h3; rw [h3]
    have := newPackHeader_len n h h2 h1 h4 (pos := s.pos) (stop := s.stop) (later := s.later)
    rw [← e] at this
    exact this
  constructor
  · intro h
    obtain ⟨n, y, h1, h2, h3, h4⟩ := newPackHeader_bits hl h
    have := key n y h1 h2 h3 h4
    rw [h] at this
    simp only [Prod.mk.injEq, Res.ok.injEq] at this
    obtain ⟨rfl, e⟩ := this
    exact ⟨n, y, h1, h2, ⟨h3, by rw [e], by rw [e], by rw [e]⟩, h4, rfl⟩
  · rintro ⟨n, h, h1, h2, t, h4, rfl⟩
    rw [key n h h1 h2 t.bits h4, ← t.pos, ← t.stop, ← t.later]

/-- a header with a system header of two streams, stuffing, and the wrong header_length -/
example : ∃ x s', newPackHeader (BR.ofBits (encPHdrLen 7 exPHdr ++ bitsOf 32 0x1e0)) = (.ok x, s') :=
  ⟨_, _, newPackHeader_len 7 exPHdr ⟨by decide, by decide, by decide, by decide, by decide, fun y hy => by
    cases hy; exact ⟨by decide, by decide, by decide, by decide, by decide⟩⟩ (by decide) ⟨by decide, by decide⟩⟩

/-- **C105** (partial: header_length must be reported as it should be, and stuffing bytes have any value, see `C105_false`):
exactly the pack headers of the standard are accepted, with exactly their bits. -/
theorem C105_partial {x : PackHeader} {s s' : BR} (hl : s.later = [])
    (hx : ∀ y, x.system = some y → y.headerLength = 6 + 3 * y.streams.length) :
    newPackHeader s = (.ok x, s') ↔
      ∃ h : PHdr, h.WF ∧ BR.Took s (encPHdr h) s' ∧ After h s'.bits ∧ x = viewPHdr h := by
  have hlen : ∀ (n : Nat) (h : PHdr), x = seen n h → ∀ y ∈ h.system, n = y.len := by
    intro n h e y hy
    have hy : h.system = some y := hy
    have := hx { viewSys y with headerLength := n } (by rw [e, seen, hy]; rfl)
    simpa [viewSys, Sys.len] using this
  rw [C105_exact hl]
  constructor
  · rintro ⟨n, h, h1, h2, t, h4, rfl⟩
    have hn := hlen n h rfl
    have e1 : encPHdrLen n h = encPHdr h ∧ seen n h = viewPHdr h := by
      unfold encPHdrLen encPHdr seen viewPHdr
      cases hs : h.system with
      | none => exact ⟨rfl, rfl⟩
      | some y =>
        rw [hs] at hn
        rw [hn y rfl]
        exact ⟨rfl, rfl⟩
    refine ⟨h, ⟨h2.1, h2.2.1, h2.2.2.1, h2.2.2.2.1, h2.2.2.2.2.1, ?_⟩, ?_, h4, e1.2⟩
    · intro y hy
      obtain ⟨a, b, c, d, e⟩ := h2.2.2.2.2.2 y hy
      exact ⟨a, b, c, d, e, by rw [← hn y hy]; exact h1⟩
    · rw [← e1.1]; exact t
  · rintro ⟨h, hw, t, h4, rfl⟩
    obtain ⟨a, b, c, d, e, f⟩ := hw
    cases hs : h.system with
    | none =>
      refine ⟨0, h, by decide, ⟨a, b, c, d, e, by rw [hs]; intro y hy; cases hy⟩, ?_, h4, ?_⟩
      · have : encPHdrLen 0 h = encPHdr h := by unfold encPHdrLen encPHdr; rw [hs]; rfl
        rw [this]; exact t
      · unfold seen viewPHdr; rw [hs]; rfl
    | some y =>
      have hy := f y hs
      refine ⟨y.len, h, hy.2.2.2.2.2, ⟨a, b, c, d, e, by
        rw [hs]; intro y' hy'; cases hy'; exact ⟨hy.1, hy.2.1, hy.2.2.1, hy.2.2.2.1, hy.2.2.2.2.1⟩⟩, ?_, h4, ?_⟩
      · have : encPHdrLen y.len h = encPHdr h := by unfold encPHdrLen encPHdr; rw [hs]; rfl
        rw [this]; exact t
      · unfold seen viewPHdr; rw [hs]; rfl

/-- C105 as stated is false: a header_length that says nothing about the header, and stuffing bytes that are not 0xFF, are
accepted. -/
theorem C105_false (h : PHdr) (hw : h.Fits) (n : Nat) (hn : n < 2 ^ 16) :
    (∃ x s', newPackHeader (BR.ofBits (encPHdrLen n h ++ bitsOf 32 0x1e0)) = (.ok x, s') ∧ s'.bits = bitsOf 32 0x1e0 ∧
      ∀ y, x.system = some y → y.headerLength = n ∧ y.streams.length = (h.system.map (·.streams.length)).getD 0) ∧
    (∀ d : List UInt8, d.length < 8 → ({ h with stuffing := d } : PHdr).Fits) := by
  have ha : After h (bitsOf 32 0x1e0) := ⟨fun _ => ⟨by decide, by decide⟩, fun _ => by decide⟩
  refine ⟨⟨_, _, newPackHeader_len n h hw hn ha, rfl, ?_⟩, fun d hd =>
    ⟨hw.1, hw.2.1, hw.2.2.1, hw.2.2.2.1, hd, hw.2.2.2.2.2⟩⟩
  intro y hy
  unfold seen at hy
  cases hs : h.system with
  | none => rw [hs] at hy; cases hy
  | some z =>
    rw [hs] at hy
    cases hy
    exact ⟨rfl, by simp [viewSys]⟩

theorem exPHdr_fits : exPHdr.Fits := ⟨by decide, by decide, by decide, by decide, by decide, fun y hy => by
    cases hy; exact ⟨by decide, by decide, by decide, by decide, by decide⟩⟩

example : exPHdr.Fits ∧ exPHdr.system ≠ none := ⟨exPHdr_fits, by decide⟩

end Mpeg.PS
