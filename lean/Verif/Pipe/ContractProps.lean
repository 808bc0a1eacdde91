/-
C114: the contract of `io.Reader` for the four readers of the module, from every state of the reader and its source.
-/
import Verif.TS.ReaderModel
import Verif.PES.Model
import Verif.PS.Props
set_option linter.all false
namespace Mpeg

/-- What a caller may rely on when `Read(p)` with `len(p) = n` returns: never more bytes than the buffer holds, and without
an error the buffer is full (as after `io.ReadFull`). -/
def WholeRead (n : Nat) (bytes : List UInt8) (err : Option Err) : Prop :=
  bytes.length ≤ n ∧ (err = none → bytes.length = n)

namespace TS

theorem fill_full (c : PRCfg) : ∀ (f n : Nat) (out rem : List UInt8) (r r' : PR) (bs : List UInt8) (e : Option Err),
    PR.fill c f n out rem r = (.ok (bs, e), r') → WholeRead (out.length + n) bs e
  | 0, _, _, _, _, _, _, _, h => by cases h
  | f + 1, n, out, rem, r, r', bs, e, h => by
    unfold PR.fill at h
    by_cases hn : n = 0
    · rw [if_pos hn] at h
      cases h
      exact ⟨by omega, fun _ => by omega⟩
    · rw [if_neg hn] at h
      split at h
      · cases h
      · cases h
      · cases h
        exact ⟨by omega, fun h => (by cases h)⟩
      · rename_i st hst
        simp only at h
        have hl : ∀ w : Bool, (if w then out ++ st.pkt.payload.take n else out).length +
            (if w then n - min n st.pkt.payload.length else n) = out.length + n := by
          intro w
          cases w
          · rfl
          · simp only [if_true, List.length_append, List.length_take]; omega
        split at h
        · cases h
          have := hl (c.whre st.pkt)
          exact ⟨by omega, fun h => (by cases h)⟩
        · have := fill_full c f _ _ _ _ _ _ _ h
          rw [hl] at this
          exact this

/-- **C114**, transport stream payload reader -/
theorem C114_payload (c : PRCfg) {fuel n : Nat} {r r' : PR} {bs : List UInt8} {e : Option Err}
    (h : PR.read c fuel n r = (.ok (bs, e), r')) : WholeRead n bs e := by
  have drain : ∀ r : PR, PR.drain c fuel n r = (.ok (bs, e), r') → WholeRead n bs e := by
    intro r h
    have := fill_full c _ _ _ _ _ _ _ _ h
    rw [List.length_take] at this
    have he : min n r.remainder.length + (n - r.remainder.length) = n := by omega
    rwa [he] at this
  unfold PR.read at h
  split at h
  · cases h
    exact ⟨Nat.zero_le _, fun h => (by cases h)⟩
  · split at h
    · exact drain _ h
    · split at h
      · exact drain _ h
      · obtain ⟨_, _, _, h2⟩ := Go.bind_eq_ok h
        exact drain _ h2

theorem give_full {n : Nat} {r r' : PU} {bs : List UInt8} {e : Option Err} (h : PU.give n r = (.ok (bs, e), r')) :
    WholeRead n bs e := by
  unfold PU.give at h
  split at h
  · cases h
    refine ⟨?_, fun _ => ?_⟩ <;> rw [List.length_take] <;> omega
  · cases h
    exact ⟨by omega, fun h => (by cases h)⟩

/-- **C114**, payload unit reader -/
theorem C114_unit (w : Tester) {fuel n : Nat} {r r' : PU} {bs : List UInt8} {e : Option Err}
    (h : PU.read w fuel n r = (.ok (bs, e), r')) : WholeRead n bs e := by
  unfold PU.read at h
  split at h
  · exact give_full h
  · obtain ⟨o, s, _, h⟩ := Go.bind_eq_ok h
    cases o with
    | some e =>
      cases h
      exact ⟨Nat.zero_le _, fun h => (by cases h)⟩
    | none =>
      obtain ⟨_, s, _, h⟩ := Go.bind_eq_ok h
      exact give_full h

end TS

namespace PES

theorem fill_full : ∀ (f n : Nat) (out rem : List UInt8) (r r' : PR) (bs : List UInt8) (e : Option Err),
    PR.fill f n out rem r = (.ok (bs, e), r') → WholeRead (out.length + n) bs e
  | 0, _, _, _, _, _, _, _, h => by cases h
  | f + 1, n, out, rem, r, r', bs, e, h => by
    unfold PR.fill at h
    by_cases hn : n = 0
    · rw [if_pos hn] at h
      cases h
      exact ⟨by omega, fun _ => by omega⟩
    · rw [if_neg hn] at h
      split at h
      · cases h
      · cases h
      · cases h
        exact ⟨by omega, fun h => (by cases h)⟩
      · rename_i st hst
        have := fill_full f _ _ _ _ _ _ _ h
        rw [List.length_append, List.length_take] at this
        have he : out.length + min n st.pkt.payload.length + (n - min n st.pkt.payload.length) = out.length + n := by omega
        rwa [he] at this

/-- **C114**, PES payload reader -/
theorem C114_pes {fuel n : Nat} {r r' : PR} {bs : List UInt8} {e : Option Err}
    (h : PR.read fuel n r = (.ok (bs, e), r')) : WholeRead n bs e := by
  have := fill_full _ _ _ _ _ _ _ _ h
  rw [List.length_take] at this
  have he : min n r.remainder.length + (n - r.remainder.length) = n := by omega
  rwa [he] at this

end PES

namespace PS

/-- What holds for the program stream reader: the bytes fit into the buffer, and the reported count is that of the bytes
stored, or 0; without an error the buffer is full, or the reported count is 0. -/
def PackRead (n : Nat) (rr : RR) : Prop :=
  rr.stored.length ≤ n ∧ (rr.count = rr.stored.length ∨ rr.count = 0) ∧ (rr.err = none → rr.count = n ∨ rr.count = 0)

theorem more_full {again : Nat → List UInt8 → Go PackReader RR} {k : Nat} {out : List UInt8} {r r' : PackReader} {rr : RR}
    (ha : ∀ k out r, again k out r = (.ok rr, r') → PackRead (out.length + k) rr)
    (h : PackReader.more again k out r = (.ok rr, r')) : PackRead (out.length + k) rr := by
  unfold PackReader.more at h
  split at h
  · split at h
    · cases h
      have : (out ++ List.take k ‹PES.Packet›.payload).length = out.length + k := by
        rw [List.length_append, List.length_take]; omega
      exact ⟨Nat.le_of_eq this, .inl rfl, fun _ => .inl this⟩
    · rename_i p b hp hk
      have := ha _ _ _ h
      rw [List.length_append] at this
      have he : out.length + p.payload.length + (k - p.payload.length) = out.length + k := by omega
      rwa [he] at this
  · cases h
    exact ⟨Nat.le_add_right _ _, .inr rfl, fun _ => .inr rfl⟩
  · cases h
  · cases h

theorem step_full {rr : RR} {r' : PackReader} : ∀ (f k : Nat) (out : List UInt8) (r : PackReader),
    PackReader.step f k out r = (.ok rr, r') → PackRead (out.length + k) rr
  | 0, _, _, _, h => by cases h
  | f + 1, k, out, r, h => by
    unfold PackReader.step at h
    split at h
    · split at h
      · cases h
        exact ⟨Nat.le_add_right _ _, .inl rfl, fun h => (by cases h)⟩
      · split at h
        · split at h
          · exact more_full (step_full f) h
          · cases h
            exact ⟨Nat.le_add_right _ _, .inr rfl, fun h => (by cases h)⟩
          · cases h
          · cases h
        · exact more_full (step_full f) h
    · cases h
      exact ⟨Nat.le_add_right _ _, .inr rfl, fun _ => .inr rfl⟩
    · cases h
    · cases h

/-- **C114 (partial)**, program stream reader: what is left of the contract. -/
theorem C114_program_partial {n : Nat} {r r' : PackReader} {rr : RR} (h : PackReader.read n r = (.ok rr, r')) :
    PackRead n rr := by
  unfold PackReader.read at h
  split at h
  · cases h
    refine ⟨?_, .inl ?_, fun _ => .inl rfl⟩ <;> simp only [List.length_take] <;> omega
  · have := step_full _ _ _ _ h
    have he : r.remainder.length + (n - r.remainder.length) = n := by omega
    rwa [he] at this

/-- **C114 is false** for the program stream reader: at the end of a program without end code, a Read with a buffer of four
bytes stores three, reports none and no error, and so do all later Reads (C112_forever). -/
theorem C114_program_false : ∃ bits r, PackReader.read 4 (PackReader.new (BR.ofBits bits)) = (.ok ⟨[1, 2, 3], 0, none⟩, r) := by
  obtain ⟨bits, h⟩ := C31_false_truncated
  obtain ⟨r, h, _⟩ := h _ rfl
  exact ⟨bits, r, h⟩

end PS

/-- the hypotheses can be met: Reads of all three kinds that end at the end of the input -/
example : ∃ r', PES.PR.read 9 5 { st := ⟨{}, BR.ofBits []⟩, remainder := [1, 2, 3] } = (.ok ([1, 2, 3], some .eof), r') :=
  ⟨_, rfl⟩
example : ∃ r', PES.PR.read 9 2 { st := ⟨{}, BR.ofBits []⟩, remainder := [1, 2, 3] } = (.ok ([1, 2], none), r') :=
  ⟨_, rfl⟩
example : ∃ r', TS.PR.read { whre := TS.isPID 5 } 9 2 { started := true, st := ⟨TS.Packet.new, BR.ofBits []⟩, remainder := [1, 2, 3] } =
    (.ok ([1, 2], none), r') :=
  ⟨_, rfl⟩
example : ∃ r', TS.PU.read (TS.isPID 5) 9 2 { started := true, st := ⟨TS.Packet.new, BR.ofBits []⟩, buffer := [1], ready := true } =
    (.ok ([1], some .eop), r') :=
  ⟨_, rfl⟩

end Mpeg
