/-
Every list of PES units is carried by some transport stream: a simple multiplexer, which shows that the hypotheses of the
theorems on stacked readers can be met for all contents.
-/
import Verif.Pipe.Lemmas
import Verif.PES.Inv
namespace Mpeg.Pipe
open PES.Spec TS.Spec

/-- an adaptation field that takes `1 + n` bytes -/
def fill : Nat → Option AF
  | 0 => none
  | n + 1 => some ⟨false, false, false, none, none, none, none, none, List.replicate n 0xff⟩

theorem fill_len (n : Nat) : len? (fill n) = n := by
  cases n with
  | zero => rfl
  | succ n => simp [fill, len?, AF.len, optLen]; omega

theorem fill_wf {n : Nat} (h : n ≤ 183) : wf? (fill n) := by
  cases n with
  | zero => trivial
  | succ n =>
    refine ⟨⟨fun c h => (by cases h), fun c h => (by cases h), fun c h => (by cases h)⟩, ?_⟩
    have := fill_len (n + 1)
    simp only [fill, len?] at this
    omega

theorem fill_plain (n : Nat) : plain? (fill n) := by
  cases n with
  | zero => trivial
  | succ n => intro e h; cases h

/-- the packets for the bytes `u`; `m` bounds their number -/
def mux (k : Nat) : Nat → Bool → List UInt8 → Pkt × List Pkt
  | 0, start, u => (⟨⟨false, start, false, k, 0, 0⟩, .afPayload (fill (183 - u.length)) u⟩, [])
  | m + 1, start, u =>
    if u.length ≤ 183 then (⟨⟨false, start, false, k, 0, 0⟩, .afPayload (fill (183 - u.length)) u⟩, [])
    else
      let r := mux k m false (u.drop 184)
      (⟨⟨false, start, false, k, 0, 0⟩, .payload (u.take 184)⟩, r.1 :: r.2)

structure Muxed (k : Nat) (start : Bool) (u : List UInt8) (g : Pkt × List Pkt) : Prop where
  legal : ∀ p ∈ g.1 :: g.2, p.WF ∧ p.body.Plain
  payload : ∀ p ∈ g.1 :: g.2, p.body.hasPayload = true
  first : TS.starts k g.1 = start
  others : ∀ p ∈ g.2, TS.starts k p = false
  bytes : TS.pidBytes k (g.1 :: g.2) = u

theorem muxed_last {k : Nat} (hk : k < 2 ^ 13) (start : Bool) {u : List UInt8} (h : u.length ≤ 183) :
    Muxed k start u (⟨⟨false, start, false, k, 0, 0⟩, .afPayload (fill (183 - u.length)) u⟩, []) where
  legal := by
    intro p hp
    simp only [List.mem_cons, List.not_mem_nil, or_false] at hp
    subst hp
    exact ⟨⟨⟨hk, (by decide : 0 < 4), (by decide : 0 < 16)⟩, fill_wf (by omega), by rw [fill_len]; omega⟩, fill_plain _⟩
  payload := by
    intro p hp
    simp only [List.mem_cons, List.not_mem_nil, or_false] at hp
    subst hp; rfl
  first := by simp [TS.starts]
  others := by simp
  bytes := by simp [TS.pidBytes, Body.data]

theorem muxed {k : Nat} (hk : k < 2 ^ 13) : ∀ (m : Nat) (start : Bool) (u : List UInt8), u.length ≤ 183 + 184 * m →
    Muxed k start u (mux k m start u)
  | 0, start, u, h => muxed_last hk start (by omega)
  | m + 1, start, u, h => by
    unfold mux
    by_cases hu : u.length ≤ 183
    · rw [if_pos hu]; exact muxed_last hk start hu
    · rw [if_neg hu]
      have ih := muxed hk m false (u.drop 184) (by simp; omega)
      refine ⟨?_, ?_, by simp [TS.starts], ?_, ?_⟩
      · intro p hp
        rcases List.mem_cons.mp hp with rfl | hp
        · refine ⟨⟨⟨hk, (by decide : 0 < 4), (by decide : 0 < 16)⟩, ?_⟩, trivial⟩
          show (u.take 184).length = 184
          rw [List.length_take]; omega
        · exact ih.legal p hp
      · intro p hp
        rcases List.mem_cons.mp hp with rfl | hp
        · rfl
        · exact ih.payload p hp
      · intro p hp
        rcases List.mem_cons.mp hp with rfl | hp
        · exact ih.first
        · exact ih.others p hp
      · have hb := ih.bytes
        unfold TS.pidBytes at hb ⊢
        rw [List.filter_cons_of_pos (by simp), List.map_cons, List.flatten_cons, hb]
        show u.take 184 ++ u.drop 184 = u
        rw [List.take_append_drop]

/-! ### PES units consist of whole bytes -/

theorem length_encHdr (h : PES.Spec.Hdr) (hw : h.WF) : (PES.Spec.encHdr h).length = 8 * (3 + h.dataLen) := by
  unfold PES.Spec.encHdr encFixed
  simp only [List.length_append, length_bitsOf, length_bitsOfBytes, PES.length_encStamps,
    PES.length_encOptExt _ hw.2.2.2.1, List.length_cons, List.length_nil, PES.Spec.Hdr.dataLen]
  omega

theorem bytes_of {l : List Bool} (h : l.length % 8 = 0) : ∃ u, bitsOfBytes u = l := by
  refine ⟨bytesOfBits (l.length / 8) l, ?_⟩
  rw [bitsOfBytes_bytesOfBits _ _ (by omega), List.take_of_length_le (by omega)]

theorem closed_aligned : ∀ (l : List PesPkt), (∀ p ∈ l, p.WF) →
    (l.flatMap (fun p => encPacket p.id p.hdr p.data)).length % 8 = 0
  | [], _ => rfl
  | p :: l, h => by
    have := closed_aligned l (fun q hq => h q (List.mem_cons_of_mem _ hq))
    rw [List.flatMap_cons, List.length_append, encPacket, List.length_append, List.length_append,
      length_encHdr _ (h p (List.mem_cons_self ..)).2.2.1, encStart]
    simp only [List.length_append, length_bitsOf, length_bitsOfBytes]
    omega

theorem enc_aligned (u : PesUnit) (h : u.WF) : u.enc.length % 8 = 0 := by
  have h1 := closed_aligned u.closed (fun p hp => (h.1 p hp).1)
  unfold PesUnit.enc
  rw [List.length_append]
  cases hl : u.last with
  | none => exact h1
  | some p =>
    simp only [encUnbounded, List.length_append, length_encHdr _ (h.2 p hl).2.2.1, encStart, length_bitsOf, length_bitsOfBytes]
    omega

end Mpeg.Pipe
