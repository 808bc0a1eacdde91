/-
Properties C28 - C31 of the program stream layer, and C30 for all start codes.
-/
import Verif.PS.ReaderLemmas
set_option linter.all false
namespace Mpeg.PS
open Spec

/-! ### C28 -/

/-- what may follow a pack header so that the parser can tell where it ends: at least 32 bits that are not a
system header start code, or, after a system header, a zero bit (every start code starts with one) -/
def After (h : PHdr) (r : List Bool) : Prop :=
  (h.system = none → 32 ≤ r.length ∧ r.take 32 ≠ bitsOf 32 0x1bb) ∧ (h.system ≠ none → r.head? = some false)

theorem follows_of_after {h : PHdr} {r : List Bool} (ha : After h r) : Follows h r := by
  unfold Follows
  cases hs : h.system with
  | none =>
    obtain ⟨h1, h2⟩ := ha.1 hs
    have hl : (r.take 32).length = 32 := by rw [List.length_take]; omega
    have hb : bitsOf 32 (natOfBits (r.take 32)) = r.take 32 := bitsOf_natOfBits' hl
    refine ⟨natOfBits (r.take 32), r.drop 32, ?_, ?_, ?_⟩
    · have := natOfBits_lt (r.take 32); rw [hl] at this; exact this
    · intro e; rw [e] at hb; exact h2 hb.symm
    · rw [hb, List.take_append_drop]
  | some s =>
    have := ha.2 (by rw [hs]; simp)
    cases r with
    | nil => simp at this
    | cons b r => simp at this; subst this; exact ⟨r, rfl⟩

section
variable {r : List Bool} {pos : Nat} {stop : Err} {later : List (List Bool × Err)}

/-- **C28** (partial: SCR base below 2^32; the full claim is false, see `C28_false`).  `NewPackHeader` on an
encoded header reports exactly the encoded values and stops exactly at the following data. -/
theorem C28_pack_header_partial (h : PHdr) (hw : h.WF) (ha : After h r) (hs : h.scrBase < 2 ^ 32) :
    ∃ x, newPackHeader ⟨encPHdr h ++ r, pos, stop, later⟩ =
        (.ok x, ⟨r, pos + (encPHdr h).length, stop, later⟩) ∧
      x.scrBase = h.scrBase ∧ x.scrExtension = h.scrExt ∧ x.muxRate = h.muxRate ∧
      x.system.isSome = h.system.isSome := by
  refine ⟨_, newPackHeader_enc h hw (follows_of_after ha), Nat.mod_eq_of_lt hs, rfl, rfl, ?_⟩
  simp [viewPHdr]

/-- The SCR base is reported modulo 2^32. -/
theorem C28_scr_mod (h : PHdr) (hw : h.WF) (ha : After h r) :
    ∃ x, newPackHeader ⟨encPHdr h ++ r, pos, stop, later⟩ =
        (.ok x, ⟨r, pos + (encPHdr h).length, stop, later⟩) ∧ x.scrBase = h.scrBase % 2 ^ 32 :=
  ⟨_, newPackHeader_enc h hw (follows_of_after ha), rfl⟩

def exSys : Sys := { rateBound := 1000, audioBound := 3, videoBound := 2, fixed := true, videoLock := true,
                     streams := [⟨0xe0, true, 46⟩, ⟨0xc0, false, 32⟩] }
def exPHdr : PHdr := { scrBase := 123456789, scrExt := 300, muxRate := 25000, stuffing := [1, 2, 255],
                       system := some exSys }

theorem exPHdr_wf : exPHdr.WF := by decide +kernel
example : exPHdr.WF ∧ exPHdr.scrBase < 2 ^ 32 ∧ After exPHdr (bitsOf 32 0x1e0) := by
  refine ⟨by decide +kernel, by decide, by decide, by decide⟩
example : After { exPHdr with system := none } (bitsOf 32 0x1e0) := ⟨by decide, by decide⟩

/-- C28 as stated is false: for every SCR base with bit 32 set the reported value is wrong. -/
theorem C28_false (v : Nat) (hv : 2 ^ 32 ≤ v) (hv' : v < 2 ^ 33) (h : PHdr) (hw : h.WF) (ha : After h r)
    (hs : h.scrBase = v) :
    ∃ x b, newPackHeader ⟨encPHdr h ++ r, pos, stop, later⟩ = (.ok x, b) ∧ x.scrBase ≠ v := by
  obtain ⟨x, h1, h2⟩ := C28_scr_mod (r := r) (pos := pos) (stop := stop) (later := later) h hw ha
  exact ⟨x, _, h1, by rw [h2, hs]; omega⟩

example : ({ scrBase := 2 ^ 32 + 5 } : PHdr).WF ∧ After { scrBase := 2 ^ 32 + 5 } (bitsOf 32 0x1e0) :=
  ⟨by decide +kernel, by decide, by decide⟩

/-! ### C29 -/

/-- **C29** (partial: the audio and video bounds are wrong, see `C29_false`).  For every system header the
parsed header reports the encoded rate bound, flags and stream entries, and the parser stops exactly at the
following data. -/
theorem C29_system_header_partial (s : Sys) (hw : s.WF) :
    ∃ x, readSystemHeader ⟨encSys s ++ (false :: r), pos, stop, later⟩ =
        (.ok x, ⟨false :: r, pos + (encSys s).length, stop, later⟩) ∧
      x.headerLength = s.len ∧ x.rateBound = s.rateBound ∧ x.fixed = s.fixed ∧ x.csps = s.csps ∧
      x.audioLock = s.audioLock ∧ x.videoLock = s.videoLock ∧
      x.packetRateRestriction = s.packetRateRestriction ∧
      x.streams.map (fun t => (t.streamID, t.boundScale, t.sizeBound)) =
        s.streams.map (fun e => (e.id, e.scale, e.size)) := by
  refine ⟨viewSys s, ?_, rfl, rfl, rfl, rfl, rfl, rfl, rfl, ?_⟩
  · rw [readSystemHeader_enc s hw, length_encSys, Nat.add_assoc]
  · simp only [viewSys, List.map_map]; rfl

/-- C29 as stated is false: whatever the header, `AudioBound` holds the video bound and `VideoBound` is 0. -/
theorem C29_false (s : Sys) (hw : s.WF) :
    ∃ x b, readSystemHeader ⟨encSys s ++ (false :: r), pos, stop, later⟩ = (.ok x, b) ∧
      x.audioBound = s.videoBound ∧ x.videoBound = 0 :=
  ⟨_, _, readSystemHeader_enc s hw, rfl, rfl⟩

example : exSys.WF ∧ exSys.audioBound ≠ exSys.videoBound := by decide +kernel
end

/-! ### C30 -/

/-- **C30**, `Check`: on success the reader has not moved and the result tells whether the next `k` bits are
the code; it succeeds exactly when `k` bits are left. -/
theorem C30_check (k code : Nat) (s : BR) (hc : code < 2 ^ k) :
    (k ≤ s.bits.length → codeCheck k code s = (.ok (decide (s.bits.take k = bitsOf k code)), s)) ∧
    (s.bits.length < k → (codeCheck k code s).1 = .err s.failErr) := by
  constructor
  · intro h
    unfold codeCheck
    rw [Go.bind_ok (BR.peek_ok h)]
    have hl : (s.bits.take k).length = k := by rw [List.length_take]; omega
    have hb : bitsOf k (natOfBits (s.bits.take k)) = s.bits.take k := bitsOf_natOfBits' hl
    simp only [Go.pure_apply, Prod.mk.injEq, and_true, Res.ok.injEq]
    rw [Bool.eq_iff_iff, beq_iff_eq, decide_eq_true_iff]
    constructor
    · intro e; rw [e] at hb; exact hb.symm
    · intro e; rw [e, natOfBits_bitsOf_of_lt hc]
  · intro h
    unfold codeCheck
    rw [Go.bind_err (BR.peek_short h)]

/-- **C30**, `Assert`: succeeds exactly when the next `k` bits are the code, and then consumes exactly these;
otherwise the error is `e` and nothing is consumed, or the input is too short. -/
theorem C30_assert (k code : Nat) (e : Err) (s : BR) (hc : code < 2 ^ k) :
    (k ≤ s.bits.length → s.bits.take k = bitsOf k code → codeAssert k code e s = (.ok (), s.adv k)) ∧
    (k ≤ s.bits.length → s.bits.take k ≠ bitsOf k code → codeAssert k code e s = (.err e, s)) ∧
    (s.bits.length < k → (codeAssert k code e s).1 = .err s.failErr) := by
  obtain ⟨h1, h2⟩ := C30_check k code s hc
  refine ⟨fun h he => ?_, fun h he => ?_, fun h => ?_⟩
  · unfold codeAssert
    rw [Go.bind_ok (h1 h), decide_eq_true he, Go.bind_ok (show Go.check true e s = (.ok (), s) from rfl),
      BR.skip_ok h]
  · unfold codeAssert
    rw [Go.bind_ok (h1 h), decide_eq_false he, Go.bind_err (show Go.check false e s = (.err e, s) from rfl)]
  · unfold codeAssert
    exact PES.bind_fst_err (h2 h)

example : let s := BR.ofBytes [0, 0, 1, 0xba, 7]
    32 ≤ s.bits.length ∧ s.bits.take 32 = bitsOf 32 packStartCode ∧
    s.bits.take 32 ≠ bitsOf 32 programEndCode := by decide +kernel

/-! ### C31 -/

/-- Successive Reads up to the first error: the bytes that the count covers, and the error. -/
def PackReader.reads : List Nat → Go PackReader (List (List UInt8 × Option Err))
  | [] => pure []
  | n :: ns => do
    let x ← PackReader.read n
    if x.err = none then do
      let l ← PackReader.reads ns
      pure ((x.stored.take x.count, x.err) :: l)
    else pure [(x.stored.take x.count, x.err)]

/-- **C31** (partial: every pack has a packet; the full claim is false, see `C31_false_empty_pack` and
`C31_false_truncated`).  For every well-formed program stream and every Read schedule the reader delivers
exactly the payloads, in order, and `io.EOF` exactly when they are exhausted. -/
theorem C31_pack_reader_partial (ps : List Pack) (hw : ∀ p ∈ ps, p.WF) (hne : ∀ p ∈ ps, p.items ≠ [])
    (tail : List Bool) (stop : Err) (later : List (List Bool × Err)) (ns : List Nat) :
    ∃ r', PackReader.reads ns (PackReader.new ⟨encProgram ps ++ tail, 0, stop, later⟩) =
      (.ok (TS.Spec.deliver (ps.flatMap Pack.payload) .eof ns), r') := by
  have key : ∀ (ns : List Nat) (r : PackReader) (c : List UInt8), At tail stop later r c →
      ∃ r', PackReader.reads ns r = (.ok (TS.Spec.deliver c .eof ns), r') := by
    intro ns
    induction ns with
    | nil => intro r c _; exact ⟨r, by simp [PackReader.reads, TS.Spec.deliver]⟩
    | cons n ns ih =>
      intro r c h
      by_cases hn : n ≤ c.length
      · obtain ⟨r1, h1, h2⟩ := read_enough h hn
        obtain ⟨r2, h3⟩ := ih r1 _ h2
        refine ⟨r2, ?_⟩
        rw [PackReader.reads, Go.bind_ok h1, if_pos rfl, Go.bind_ok h3]
        have : (c.take n).take n = c.take n := by rw [List.take_take, Nat.min_self]
        simp [TS.Spec.deliver, hn, this]
      · obtain ⟨pos, h1⟩ := read_end h (n := n) (by omega)
        refine ⟨⟨⟨tail, pos, stop, later⟩, []⟩, ?_⟩
        rw [PackReader.reads, Go.bind_ok h1, if_neg (by simp)]
        simp [TS.Spec.deliver, hn]
  obtain ⟨r', h⟩ := key ns (PackReader.new ⟨encProgram ps ++ tail, 0, stop, later⟩) (ps.flatMap Pack.payload)
    ⟨[], ps, 0, by simp, fun p hp => ⟨hw p hp, hne p hp⟩, by
      simp [PackReader.new, progBits, encProgram], by simp [PackReader.new, payloads]⟩
  exact ⟨r', h⟩

def exPacks : List Pack :=
  [⟨exPHdr, [.media 0xe0 {} [1, 2, 3], .padding [255]]⟩, ⟨{}, [.media 0xc0 {} [4, 5]]⟩]

theorem exPacks_ok : (∀ p ∈ exPacks, p.WF) ∧ (∀ p ∈ exPacks, p.items ≠ []) ∧
    exPacks.flatMap Pack.payload = [1, 2, 3, 4, 5] := by
  refine ⟨?_, ?_, rfl⟩
  · intro p hp
    simp only [exPacks, List.mem_cons, List.not_mem_nil, or_false] at hp
    rcases hp with rfl | rfl
    · refine ⟨exPHdr_wf, ?_⟩
      intro i hi
      simp only [List.mem_cons, List.not_mem_nil, or_false] at hi
      rcases hi with rfl | rfl
      · exact ⟨by decide, by decide, by decide, by decide +kernel, by decide +kernel, by decide +kernel⟩
      · show 1 < 65536; decide
    · refine ⟨by decide +kernel, ?_⟩
      intro i hi
      simp only [List.mem_cons, List.not_mem_nil, or_false] at hi
      subst hi
      exact ⟨by decide, by decide, by decide, by decide +kernel, by decide +kernel, by decide +kernel⟩
  · intro p hp
    simp only [exPacks, List.mem_cons, List.not_mem_nil, or_false] at hp
    rcases hp with rfl | rfl <;> simp

/-- C31 as stated is false: in a stream that ends without end code the bytes already stored in the caller's
buffer are not counted, and no error is reported, ever. -/
theorem C31_false_truncated : ∃ bits : List Bool, ∀ b, PackReader.read 4 (PackReader.new (BR.ofBits bits)) = b →
    ∃ r, b = (.ok ⟨[1, 2, 3], 0, none⟩, r) ∧ (PackReader.read 4 r).1 = .ok ⟨[], 0, none⟩ := by
  refine ⟨encPack ⟨{}, [.media 0xe0 {} [1, 2, 3]]⟩, ?_⟩
  rintro b rfl
  exact ⟨(PackReader.read 4 (PackReader.new (BR.ofBits (encPack ⟨{}, [.media 0xe0 {} [1, 2, 3]]⟩)))).2,
    by decide +kernel, by decide +kernel⟩

/-- C31 as stated is false: after a pack without packets the payloads of the next pack are lost and no error is
reported. -/
theorem C31_false_empty_pack :
    (PackReader.read 3 (PackReader.new (BR.ofBits
      (encProgram [⟨{}, []⟩, ⟨{}, [.media 0xe0 {} [1, 2, 3]]⟩])))).1 = .ok ⟨[], 0, none⟩ := by
  decide +kernel

/-- After the end of a program has been reported, a further Read reports neither bytes nor an error. -/
theorem C31_false_after_end :
    let r := (PackReader.read 4 (PackReader.new (BR.ofBits (encProgram [⟨{}, [.media 0xe0 {} [1, 2, 3]]⟩]))))
    r.1 = .ok ⟨[1, 2, 3], 3, some .eof⟩ ∧ (PackReader.read 4 r.2).1 = .ok ⟨[], 0, none⟩ := by
  decide +kernel

end Mpeg.PS
