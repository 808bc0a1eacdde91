/-
What the readers keep between calls of `Read`.
-/
import Verif.TS.ConserveSpec
import Verif.TS.ReaderProps
import Verif.PS.Props
import Verif.Video.CausLemmas3
set_option linter.all false
namespace Mpeg

namespace TS

/-- The payload of the current packet fits a packet. -/
def Fits (s : St) : Prop := s.pkt.payloadLen ≤ 184

theorem fits_lift {α : Type} (m : Go BR α) : Go.Keeps Fits (St.lift m) := fun _ h => h
theorem fits_readInto {α : Type} {m : Go BR α} {z : α} {set : α → Packet → Packet}
    (hs : ∀ a p, (set a p).payloadLen = p.payloadLen) : Go.Keeps Fits (readInto m z set) := by
  intro s h
  unfold readInto
  split <;> simp_all [Fits]
theorem fits_adaptation : Go.Keeps Fits readAdaptation := by
  intro s h
  unfold readAdaptation
  split <;> simp_all [Fits]
theorem fits_payload (n : Nat) : Go.Keeps Fits (readPayload n) := by
  intro s h
  unfold readPayload
  split
  · exact h
  · rename_i hn
    have hn : n ≤ 184 := by simp [maxPayloadSize] at hn; omega
    split
    · split
      · exact hn
      · exact hn
      · exact hn
    · exact h
    · exact h
    · exact h
theorem fits_next : Go.Keeps Fits Packet.next := by
  unfold Packet.next
  refine .bind (fits_lift _) fun _ => .bind (fits_readInto fun _ _ => rfl) fun _ => .bind (fits_readInto fun _ _ => rfl) fun _ =>
    .bind (fits_readInto fun _ _ => rfl) fun _ => .bind (fits_readInto fun _ _ => rfl) fun _ =>
    .bind (fits_readInto fun _ _ => rfl) fun _ => .bind (fits_lift _) fun afc => .bind (.modify fun _ h => h) fun _ =>
    .bind (fits_readInto fun _ _ => rfl) fun _ => .bind (.opt (.bind fits_adaptation fun _ => .pure _)) fun _ => .opt (fits_payload _)

theorem Fits.le {s : St} (h : Fits s) : s.pkt.payload.length ≤ 184 := by
  unfold Packet.payload
  rw [List.length_take]
  have : s.pkt.payloadLen ≤ 184 := h
  omega

def Slim (r : PR) : Prop := Fits r.st ∧ r.remainder.length ≤ 184 ∧ (r.started = false → r.remainder = [])

theorem slim_fill (c : PRCfg) : ∀ (f n : Nat) (out rem : List UInt8) (r : PR), Fits r.st → rem.length ≤ 184 →
    r.started = true → (r.remainder.length ≤ 184 ∧ (r.remainder = [] ∨ (n = 0 ∧ rem = []))) → Slim (PR.fill c f n out rem r).2
  | 0, n, out, rem, r, h1, h2, h3, h4 => ⟨h1, h4.1, fun h => by
      have h : r.started = false := h
      rw [h3] at h; cases h⟩
  | f + 1, n, out, rem, r, h1, h2, h3, h4 => by
    unfold PR.fill
    by_cases hn : n = 0
    · rw [if_pos hn]
      refine ⟨h1, ?_, fun h => by rw [show r.started = true from h3] at h; cases h⟩
      rcases h4.2 with h | ⟨_, h⟩
      · simpa [h] using h2
      · simpa [h] using h4.1
    · rw [if_neg hn]
      have hr : r.remainder = [] := h4.2.resolve_right fun h => hn h.1
      have hk := fits_next r.st h1
      cases hx : Packet.next r.st with
      | mk x st =>
        rw [hx] at hk
        have hs : ∀ cl, Slim { r with st := st, closed := cl } :=
          fun cl => ⟨hk, by simp [hr], fun h => by rw [show r.started = true from h3] at h; cases h⟩
        cases x with
        | panic => exact hs _
        | hang => exact hs _
        | err e => exact hs _
        | ok u =>
          dsimp only
          split
          · exact hs _
          · refine slim_fill c f _ _ _ _ hk ?_ h3 ⟨by simp [hr], .inl hr⟩
            split
            · have : st.pkt.payload.length ≤ 184 := Fits.le hk
              rw [List.length_drop]; omega
            · exact h2

theorem slim_drain (c : PRCfg) (fuel n : Nat) (r : PR) (h : Slim r) (h3 : r.started = true) : Slim (PR.drain c fuel n r).2 := by
  unfold PR.drain
  refine slim_fill c _ _ _ _ _ h.1 (by simp) h3 ⟨?_, ?_⟩
  · have := h.2.1
    simp only [List.length_drop]; omega
  · by_cases hn : r.remainder.length ≤ n
    · left; exact List.drop_eq_nil_of_le hn
    · right; exact ⟨by omega, rfl⟩

theorem slim_realign (t : Tester) : ∀ (f : Nat) (r : PR), Fits r.st → r.remainder = [] → r.started = true →
    Slim (PR.realign t f r).2 ∧ (PR.realign t f r).2.started = true
  | 0, r, h1, h2, h3 => ⟨⟨h1, by simp [PR.realign, Go.hang, h2], fun _ => h2⟩, h3⟩
  | f + 1, r, h1, h2, h3 => by
    unfold PR.realign
    have hk := fits_next r.st h1
    cases hx : Packet.next r.st with
    | mk x st =>
      rw [hx] at hk
      have hs : Slim { r with st := st } := ⟨hk, by simp [h2], fun _ => h2⟩
      have hle := Fits.le hk
      have hd : Slim { r with st := st, remainder := r.remainder ++ st.pkt.payload } :=
        ⟨hk, by simpa [h2] using hle, fun h => by rw [show r.started = true from h3] at h; cases h⟩
      cases x with
      | panic => exact ⟨hs, h3⟩
      | hang => exact ⟨hs, h3⟩
      | err e =>
        dsimp only
        split
        · exact ⟨hd, h3⟩
        · exact slim_realign t f _ hk h2 h3
      | ok u =>
        dsimp only
        split
        · exact ⟨hd, h3⟩
        · exact slim_realign t f _ hk h2 h3

theorem slim_read (c : PRCfg) (fuel n : Nat) : Go.Keeps Slim (PR.read c fuel n) := by
  intro r h
  unfold PR.read
  split
  · exact h
  · split
    · rename_i hs; exact slim_drain c fuel n r h hs
    · rename_i hs
      have hs : r.started = false := by simpa using hs
      have hr := h.2.2 hs
      have h' : Slim { r with started := true } := ⟨h.1, h.2.1, fun _ => hr⟩
      split
      · exact slim_drain c fuel n _ h' rfl
      · rename_i t ht
        have := slim_realign t fuel { r with started := true } h.1 hr rfl
        rw [Go.bind_apply]
        cases hx : PR.realign t fuel { r with started := true } with
        | mk x r' =>
          rw [hx] at this
          cases x with
          | ok u => exact slim_drain c fuel n r' this.1 this.2
          | err e => exact this.1
          | panic => exact this.1
          | hang => exact this.1

theorem slim_all (c : PRCfg) (fuel : Nat) : ∀ ns, Go.Keeps Slim (PR.all c fuel ns)
  | [] => .pure _
  | n :: ns => .bind (slim_read c fuel n) fun _ => .bind (slim_all c fuel ns) fun _ => .pure _

/-- **C120** Over any history of Reads, whatever their sizes and results, and for any testers, the payload reader keeps at
most the payload of one packet. -/
theorem C120_payload (c : PRCfg) (fuel : Nat) (ns : List Nat) (br : BR) :
    ((PR.all c fuel ns (PR.new br)).2.remainder).length ≤ 184 :=
  (slim_all c fuel ns (PR.new br) ⟨Nat.zero_le _, Nat.zero_le _, fun _ => rfl⟩).2.1

theorem read_at_end (w : Tester) (fuel n : Nat) {r : PU} {e : Err} (h1 : r.started = true) (h2 : r.ready = false)
    (h3 : w r.st.pkt = true) (h4 : Packet.next r.st = (.err e, r.st)) :
    PU.read w (fuel + 1) n r = (.ok ([], some e), { r with buffer := r.buffer ++ r.st.pkt.payload }) := by
  have : PU.fill w (fuel + 1) r = (.ok (some e), { r with buffer := r.buffer ++ r.st.pkt.payload }) := by
    unfold PU.fill PU.collect
    simp only [h1, h3, if_true, h4]
  unfold PU.read
  rw [if_neg (by simp [h2]), Go.bind_ok this]
  rfl

/-- **C120** (what the payload unit reader does at the end of its input) Once the source reports an error and stays where it
is, every Read stores the payload of the last packet once more. -/
theorem C120_unit_end (w : Tester) (fuel : Nat) {e : Err} : ∀ (ns : List Nat) (r : PU), r.started = true → r.ready = false →
    w r.st.pkt = true → Packet.next r.st = (.err e, r.st) →
    (PU.all w (fuel + 1) ns r).2.buffer = r.buffer ++ (List.replicate ns.length r.st.pkt.payload).flatten
  | [], r, _, _, _, _ => by simp [PU.all]
  | n :: ns, r, h1, h2, h3, h4 => by
    unfold PU.all
    rw [Go.bind_ok (read_at_end w fuel n h1 h2 h3 h4), Go.bind_apply]
    have := C120_unit_end w fuel ns { r with buffer := r.buffer ++ r.st.pkt.payload } h1 h2 h3 h4
    cases hx : PU.all w (fuel + 1) ns { r with buffer := r.buffer ++ r.st.pkt.payload } with
    | mk x r' =>
      rw [hx] at this
      have e : r'.buffer = r.buffer ++ (List.replicate (n :: ns).length r.st.pkt.payload).flatten := by
        rw [this]
        simp [List.replicate_succ]
      cases x <;> exact e

/-- **C120** (false for the payload unit reader) What it keeps is not bounded by its input: after `n` Reads of a stream of
one packet it keeps the payload of that packet `n` times. -/
theorem C120_unit_false (n : Nat) :
    ((PU.all (isPID 0x21) 3 (List.replicate n 1) (PU.new (BR.ofBytes oneUnit))).2.buffer).length = 184 * n := by
  cases n with
  | zero => rfl
  | succ n =>
    have h0 : (PU.read (isPID 0x21) 3 1 (PU.new (BR.ofBytes oneUnit))).1 = .ok ([], some .eof) := by decide +kernel
    have h1 : (PU.read (isPID 0x21) 3 1 (PU.new (BR.ofBytes oneUnit))).2.started = true := by decide +kernel
    have h2 : (PU.read (isPID 0x21) 3 1 (PU.new (BR.ofBytes oneUnit))).2.ready = false := by decide +kernel
    have h3 : isPID 0x21 (PU.read (isPID 0x21) 3 1 (PU.new (BR.ofBytes oneUnit))).2.st.pkt = true := by decide +kernel
    have h4 : Packet.next (PU.read (isPID 0x21) 3 1 (PU.new (BR.ofBytes oneUnit))).2.st =
      (.err .eof, (PU.read (isPID 0x21) 3 1 (PU.new (BR.ofBytes oneUnit))).2.st) := by decide +kernel
    have h5 : (PU.read (isPID 0x21) 3 1 (PU.new (BR.ofBytes oneUnit))).2.buffer.length = 184 := by decide +kernel
    have h6 : (PU.read (isPID 0x21) 3 1 (PU.new (BR.ofBytes oneUnit))).2.st.pkt.payload.length = 184 := by decide +kernel
    have h7 := C120_unit_end (isPID 0x21) 2 (List.replicate n 1) _ h1 h2 h3 h4
    generalize hx : PU.read (isPID 0x21) 3 1 (PU.new (BR.ofBytes oneUnit)) = x at *
    obtain ⟨x, r⟩ := x
    dsimp only at *
    subst h0
    rw [List.replicate_succ]
    unfold PU.all
    rw [Go.bind_ok hx, Go.bind_apply]
    have h8 : (PU.all (isPID 0x21) 3 (List.replicate n 1) r).2.buffer =
      r.buffer ++ (List.replicate (List.replicate n 1).length r.st.pkt.payload).flatten := h7
    cases hy : PU.all (isPID 0x21) 3 (List.replicate n 1) r with
    | mk y r' =>
      rw [hy] at h8
      have : r'.buffer.length = 184 * (n + 1) := by
        rw [show r'.buffer = _ from h8]
        simp [h5, h6]
        omega
      cases y <;> exact this

end TS

namespace PES

def Slim (r : PR) : Prop := r.remainder <:+ r.st.pkt.payload

theorem slim_fill : ∀ (f n : Nat) (out rem : List UInt8) (r : PR), (rem <:+ r.st.pkt.payload) →
    (r.remainder = [] ∨ (n = 0 ∧ rem = [] ∧ Slim r)) → Slim (PR.fill f n out rem r).2
  | 0, n, out, rem, r, h1, h2 => by
    rcases h2 with h2 | ⟨_, _, h2⟩
    · simp [PR.fill, Go.hang, Slim, h2]
    · exact h2
  | f + 1, n, out, rem, r, h1, h2 => by
    unfold PR.fill
    by_cases hn : n = 0
    · rw [if_pos hn]
      rcases h2 with h2 | ⟨_, h, h2⟩
      · simpa [Slim, h2] using h1
      · subst h
        simpa [Slim] using h2
    · rw [if_neg hn]
      have hr : r.remainder = [] := h2.resolve_right fun h => hn h.1
      cases hx : Packet.next r.st with
      | mk x st =>
        have hs : Slim { r with st := st } := by simp [Slim, hr]
        cases x with
        | panic => exact hs
        | hang => exact hs
        | err e => exact hs
        | ok u => exact slim_fill f _ _ _ _ (List.drop_suffix _ _) (.inl hr)

theorem slim_read (fuel n : Nat) : Go.Keeps Slim (PR.read fuel n) := by
  intro r h
  unfold PR.read
  refine slim_fill _ _ _ _ _ (by simp) ?_
  by_cases hn : r.remainder.length ≤ n
  · left; exact List.drop_eq_nil_of_le hn
  · right; exact ⟨by omega, rfl, (List.drop_suffix _ _).trans h⟩

theorem slim_all (fuel : Nat) : ∀ ns, Go.Keeps Slim (PR.all fuel ns)
  | [] => .pure _
  | n :: ns => .bind (slim_read fuel n) fun _ => .bind (slim_all fuel ns) fun _ => .pure _

/-- **C120** The PES payload reader keeps the end of the payload of the packet that was read last, and nothing else. -/
theorem C120_payload (fuel : Nat) (ns : List Nat) (br : BR) :
    (PR.all fuel ns (PR.new br)).2.remainder <:+ (PR.all fuel ns (PR.new br)).2.st.pkt.payload :=
  slim_all fuel ns (PR.new br) (List.suffix_refl _)

end PES

namespace PS

/-- Successive Reads of a program stream reader; errors do not stop the caller. -/
def PackReader.all : List Nat → Go PackReader (List RR)
  | [] => pure []
  | n :: ns => do
    let o ← PackReader.read n
    let os ← PackReader.all ns
    pure (o :: os)

/-- Nothing, or the end of the payload of one PES packet that `pes.NewPacket` returned. -/
def Slim (r : PackReader) : Prop :=
  r.remainder = [] ∨ ∃ b p b', newPacket b = (.ok p, b') ∧ r.remainder <:+ p.payload

theorem slim_more (again : Nat → List UInt8 → Go PackReader RR)
    (ha : ∀ k out r, r.remainder = [] → Slim (again k out r).2) (k : Nat) (out : List UInt8) (r : PackReader)
    (hr : r.remainder = []) : Slim (PackReader.more again k out r).2 := by
  unfold PackReader.more
  split
  · rename_i p b hp
    split
    · exact .inr ⟨_, _, _, hp, by simpa [hr] using List.drop_suffix _ _⟩
    · exact ha _ _ _ hr
  · exact .inl hr
  · exact .inl hr
  · exact .inl hr

theorem slim_step : ∀ (f k : Nat) (out : List UInt8) (r : PackReader), r.remainder = [] → Slim (PackReader.step f k out r).2
  | 0, _, _, r, hr => .inl hr
  | f + 1, k, out, r, hr => by
    unfold PackReader.step
    split
    · split
      · exact .inl hr
      · split
        · split
          · exact slim_more _ (slim_step f) _ _ _ hr
          · exact .inl hr
          · exact .inl hr
          · exact .inl hr
        · exact slim_more _ (slim_step f) _ _ _ hr
    · exact .inl hr
    · exact .inl hr
    · exact .inl hr

theorem slim_read (n : Nat) : Go.Keeps Slim (PackReader.read n) := by
  intro r h
  unfold PackReader.read
  split
  · rcases h with h | ⟨b, p, b', hp, h⟩
    · left; simp [h]
    · exact .inr ⟨b, p, b', hp, (List.drop_suffix _ _).trans h⟩
  · exact slim_step _ _ _ _ rfl

theorem slim_all : ∀ ns, Go.Keeps Slim (PackReader.all ns)
  | [] => .pure _
  | n :: ns => .bind (slim_read n) fun _ => .bind (slim_all ns) fun _ => .pure _

/-- **C120** The program stream reader keeps nothing or the end of the payload of one PES packet. -/
theorem C120_pack (ns : List Nat) (br : BR) :
    (PackReader.all ns (PackReader.new br)).2.remainder = [] ∨
    ∃ b p b', newPacket b = (.ok p, b') ∧ (PackReader.all ns (PackReader.new br)).2.remainder <:+ p.payload :=
  slim_all ns (PackReader.new br) (.inl rfl)

end PS
end Mpeg
