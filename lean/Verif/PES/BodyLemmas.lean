/-
Inversion of the body of `Packet.Next`.
-/
import Verif.PES.ReaderLemmas
set_option linter.all false
namespace Mpeg.PES
open Spec
open Mpeg.TS (sub32)

theorem bind_eq_panic {σ α β : Type} {m : Go σ α} {f : α → Go σ β} {s s' : σ}
    (h : (m >>= f) s = (.panic, s')) :
    m s = (.panic, s') ∨ ∃ a s1, m s = (.ok a, s1) ∧ f a s1 = (.panic, s') := by
  rw [Go.bind_apply] at h
  cases hm : m s with
  | mk r s1 =>
    rw [hm] at h
    cases r with
    | ok a => exact .inr ⟨a, s1, rfl, h⟩
    | err e => cases h
    | panic => cases h; exact .inl rfl
    | hang => cases h

theorem headerInto_inv {n : Nat} {s s' : St} (h : headerInto s = (.ok n, s')) :
    ∃ x, readHeader s.br = (.ok (x, n), s'.br) ∧ s'.pkt = { s.pkt with header := some x } := by
  unfold headerInto at h
  cases hm : readHeader s.br with
  | mk r b =>
    rw [hm] at h
    cases r with
    | ok a => obtain ⟨x, m⟩ := a; cases h; exact ⟨x, rfl, rfl⟩
    | err e => cases h
    | panic => cases h
    | hang => cases h

theorem bounded_pkt (n : Nat) (s : St) :
    (boundedPayload n s).2.pkt.streamID = s.pkt.streamID ∧
    (boundedPayload n s).2.pkt.packetLength = s.pkt.packetLength ∧
    (boundedPayload n s).2.pkt.header = s.pkt.header := by
  unfold boundedPayload
  cases hm : BR.readFull n s.br with
  | mk r b =>
    cases r with
    | ok a => obtain ⟨x, m⟩ := a; cases m <;> exact ⟨rfl, rfl, rfl⟩
    | err e => exact ⟨rfl, rfl, rfl⟩
    | panic => exact ⟨rfl, rfl, rfl⟩
    | hang => exact ⟨rfl, rfl, rfl⟩

theorem unbounded_pkt (s : St) :
    (unboundedPayload s).2.pkt.streamID = s.pkt.streamID ∧
    (unboundedPayload s).2.pkt.packetLength = s.pkt.packetLength ∧
    (unboundedPayload s).2.pkt.header = s.pkt.header := by
  unfold unboundedPayload
  cases hm : BR.readAll s.br with
  | mk r b =>
    cases r with
    | ok a =>
      obtain ⟨x, m⟩ := a
      rcases m with _ | e
      · exact ⟨rfl, rfl, rfl⟩
      · cases e <;> exact ⟨rfl, rfl, rfl⟩
    | err e => exact ⟨rfl, rfl, rfl⟩
    | panic => exact ⟨rfl, rfl, rfl⟩
    | hang => exact ⟨rfl, rfl, rfl⟩

theorem rest_pkt (len n : Nat) (s : St) :
    ((if len > 0 then boundedPayload (sub32 len n) else unboundedPayload) s).2.pkt.streamID = s.pkt.streamID ∧
    ((if len > 0 then boundedPayload (sub32 len n) else unboundedPayload) s).2.pkt.packetLength
      = s.pkt.packetLength ∧
    ((if len > 0 then boundedPayload (sub32 len n) else unboundedPayload) s).2.pkt.header = s.pkt.header := by
  split
  · exact bounded_pkt _ s
  · exact unbounded_pkt s

/-- what a successful body did: either a header was read and then the payload, or no header -/
theorem body_inv {id len : Nat} {s s' : St} (h : Packet.body id len s = (.ok (), s')) :
    s'.pkt.streamID = s.pkt.streamID ∧ s'.pkt.packetLength = s.pkt.packetLength ∧
    (hasPESHeader id = true → ∃ x n b, readHeader s.br = (.ok (x, n), b) ∧ s'.pkt.header = some x ∧
      (if len > 0 then boundedPayload (sub32 len n) else unboundedPayload)
        ⟨{ s.pkt with header := some x }, b⟩ = (.ok (), s')) := by
  unfold Packet.body at h
  by_cases hh : hasPESHeader id = true
  · rw [if_pos hh] at h
    obtain ⟨n, s1, h1, h2⟩ := Go.bind_eq_ok h
    obtain ⟨x, e1, e2⟩ := headerInto_inv h1
    have hp := rest_pkt len n s1
    rw [h2] at hp
    obtain ⟨p1, p2, p3⟩ := hp
    refine ⟨by rw [p1, e2], by rw [p2, e2], fun _ => ⟨x, n, s1.br, e1, by rw [p3, e2], ?_⟩⟩
    rw [← e2]; exact h2
  · rw [if_neg hh] at h
    refine ⟨?_, ?_, fun h' => absurd h' hh⟩
    all_goals
      by_cases hp : id = paddingStream
      · rw [if_pos hp] at h
        obtain ⟨x, s1, h1, h2⟩ := Go.bind_eq_ok h
        cases h2
        rw [(lift_inv h1).2]
      · rw [if_neg hp] at h
        cases h; rfl

theorem readExact_err {n : Nat} {s s' : BR} {e : Err} (h : readExact n s = (.err e, s')) :
    e = s.stop ∨ e = .unexpectedEOF := by
  unfold readExact at h
  by_cases hl : 8 * n ≤ s.bits.length
  · have : BR.readFull n s = (.ok (bytesOfBits n s.bits, none), s.adv (8 * n)) := by
      simp [BR.readFull, hl]
    rw [Go.bind_ok this] at h
    cases h
  · have : BR.readFull n s = (.ok (bytesOfBits (s.bits.length / 8) s.bits, some s.failErr), s.failTo) := by
      simp [BR.readFull, hl]
    rw [Go.bind_ok this] at h
    have h' : e = s.failErr := by cases h; rfl
    subst h'
    unfold BR.failErr
    split
    · exact .inl rfl
    · split
      · exact .inr rfl
      · exact .inl rfl

theorem next_body_pkt {id len : Nat} (hh : hasPESHeader id = false) (s : St) :
    (Packet.body id len s).2.pkt = s.pkt := by
  unfold Packet.body
  rw [if_neg (by simp [hh])]
  split
  · rw [Go.bind_apply]
    cases hm : St.lift (readExact len) s with
    | mk x y =>
      have : y.pkt = s.pkt := by
        unfold St.lift at hm; cases hm; rfl
      cases x <;> exact this
  · rfl

/-! ### number of bytes consumed -/

theorem hdr_took {x : Header} {n : Nat} {s s' : BR} (h : readHeader s = (.ok (x, n), s')) :
    ∃ l k, BR.Took s l s' ∧ l.length = 8 * k ∧ n = k % 2 ^ 32 := by
  obtain ⟨hd, hdl, _, _, _, w, _, _, _, _, e, t⟩ := readHeader_inv h
  exact ⟨_, 3 + hd.dataLen, t, length_hdrBits hd hdl w, e⟩

theorem bounded_took {n : Nat} {s s' : St} (h : boundedPayload n s = (.ok (), s')) :
    ∃ l, BR.Took s.br l s'.br ∧ l.length = 8 * n ∧ s'.pkt.payload.length = n ∧
      l = bitsOfBytes s'.pkt.payload := by
  unfold boundedPayload at h
  cases hm : BR.readFull n s.br with
  | mk r b =>
    rw [hm] at h
    cases r with
    | ok a =>
      obtain ⟨x, m⟩ := a
      cases m with
      | none =>
        obtain ⟨t, hl⟩ := BR.readFull_inv hm
        simp only [Prod.mk.injEq, true_and] at h
        subst h
        have e : x ++ List.replicate (n - x.length) 0 = x := by simp [hl]
        exact ⟨_, t, by simp [hl], by show (x ++ List.replicate (n - x.length) 0).length = n; rw [e, hl],
          by show _ = bitsOfBytes (x ++ List.replicate (n - x.length) 0); rw [e]⟩
      | some e => cases h
    | err e => cases h
    | panic => cases h
    | hang => cases h

/-- a header whose PES_header_data_length is smaller than what its flags announce -/
theorem readHeader_wrap {r : List Bool} {pos : Nat} {stop : Err} {later : List (List Bool × Err)}
    (t : Stamp) (st : List UInt8) (ht : t.WF) (hg : t.good 2 = true)
    (hs : st.length = sub32 0 5) (hf : st.all (· == 255) = true) :
    ∃ x, readHeader ⟨bitsOf 2 2 ++ ((bitsOf 2 0 ++ [false, false, false, false] ++ bitsOf 2 2 ++
      [false, false, false, false, false, false] ++ bitsOf 8 0) ++ (encStamps (.pts t) ++
        (bitsOfBytes st ++ r))), pos, stop, later⟩ =
      (.ok (x, (8 + st.length) % 2 ^ 32), ⟨r, pos + 8 * (8 + st.length), stop, later⟩) := by
  have hmark := marker_bitsOf (r := (bitsOf 2 0 ++ [false, false, false, false] ++ bitsOf 2 2 ++
      [false, false, false, false, false, false] ++ bitsOf 8 0) ++ (encStamps (.pts t) ++
        (bitsOfBytes st ++ r)))
    (pos := pos) (stop := stop) (later := later) 2 2 2 (by decide)
  rw [if_pos rfl] at hmark
  have hfix : readFixed ⟨(bitsOf 2 0 ++ [false, false, false, false] ++ bitsOf 2 2 ++
      [false, false, false, false, false, false] ++ bitsOf 8 0) ++ (encStamps (.pts t) ++
        (bitsOfBytes st ++ r)), pos + 2, stop, later⟩ = (.ok { ptsDtsFlags := 2 },
        ⟨encStamps (.pts t) ++ (bitsOfBytes st ++ r), pos + 2 + 22, stop, later⟩) := by
    simp only [readFixed, List.append_assoc, List.cons_append, List.nil_append,
      Go.bind_apply, BR.read1_cons, BR.read_bitsOf, Go.pure_apply]
  have hst := readStamps_enc (r := bitsOfBytes st ++ r)
    (pos := pos + 2 + 22) (stop := stop) (later := later) (.pts t) ht hg
  have hfl := readStuffing_enc (r := r) (stop := stop) (later := later) st (pos + 2 + 22 + 8 * 5) hf
  refine ⟨{ ptsDtsFlags := 2, presentationTimeStamp := viewPts (.pts t),
            decodingTimeStamp := viewDts (.pts t) }, ?_⟩
  unfold readHeader
  rw [Go.bind_ok hmark, Go.bind_ok hfix]
  rw [show ({ ptsDtsFlags := 2 } : Header).ptsDtsFlags = (Stamps.pts t).flags from rfl, Go.bind_ok hst,
    show ({ ptsDtsFlags := 2 } : Header).unsupported = false from rfl]
  dsimp only [Go.opt_false]
  rw [Go.bind_ok (Go.pure_apply _ _), show (Stamps.pts t).len = 5 from rfl]
  rw [Go.bind_ok (Go.pure_apply _ _)]
  simp only [Option.map_none, Option.getD_none, Nat.add_zero, ← hs]
  rw [Go.bind_ok hfl, Go.pure_apply]
  have e1 : 3 + 5 + st.length = 8 + st.length := by omega
  have e2 : pos + 2 + 22 + 8 * 5 + 8 * st.length = pos + 8 * (8 + st.length) := by omega
  rw [e1, e2]
  rfl

/-! ### the end of the input -/

theorem next_end (p : Packet) (pos : Nat) (stop : Err) :
    Packet.next ⟨p, ⟨[], pos, stop, []⟩⟩ = (.err stop, ⟨p, ⟨[], pos, stop, []⟩⟩) := by
  have h : St.lift prefix24 ⟨p, ⟨[], pos, stop, []⟩⟩ = (.err stop, ⟨p, ⟨[], pos, stop, []⟩⟩) := by
    have h0 : BR.peek 24 ⟨[], pos, stop, []⟩ = (.err stop, ⟨[], pos, stop, []⟩) := by
      simp [BR.peek, BR.failErr, BR.failTo]
    have : prefix24 ⟨[], pos, stop, []⟩ = (.err stop, ⟨[], pos, stop, []⟩) := by
      unfold prefix24; rw [Go.bind_err h0]
    simp [St.lift, this]
  unfold Packet.next
  rw [Go.bind_err h]

end Mpeg.PES
