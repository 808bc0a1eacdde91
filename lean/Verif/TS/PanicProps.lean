/-
C143: exactly where parsing transport stream packets panics.
-/
import Verif.TS.AcceptProps
namespace Mpeg.TS
open Spec

/-- **C143** (transport stream).  `Packet.Next` panics exactly when, behind the next sync byte, there is a header of any values with
adaptation_field_control 11, behind which `NewAdaptationField` succeeds with a length above 183. -/
theorem C143_ts (s : St) : (Packet.next s).1 = .panic ↔
    ∃ (h : Hdr) (b1 b2 b3 : BR) (af : AdaptationField) (len : Nat), h.WF ∧ sync s.br = (.ok (), b1) ∧
      BR.Took b1 (hdrTail h 3) b2 ∧ newAdaptationField b2 = (.ok (af, len), b3) ∧ 183 < len := by
  constructor
  · intro hp
    obtain ⟨s', h⟩ : ∃ s', Packet.next s = (.panic, s') := by
      cases hh : Packet.next s with
      | mk r s' => rw [hh] at hp; exact ⟨s', by rw [show r = .panic from hp]⟩
    rw [next_eq] at h
    obtain ⟨_, s0, h0, h⟩ := bind_eq_panic (safe_lift safe_sync) h
    unfold afterSync at h
    obtain ⟨_, s1, h1, h⟩ := bind_eq_panic (safe_readInto BR.safe_read1) h
    obtain ⟨_, s2, h2, h⟩ := bind_eq_panic (safe_readInto BR.safe_read1) h
    obtain ⟨_, s3, h3, h⟩ := bind_eq_panic (safe_readInto BR.safe_read1) h
    obtain ⟨_, s4, h4, h⟩ := bind_eq_panic (safe_readInto (BR.safe_read _)) h
    obtain ⟨_, s5, h5, h⟩ := bind_eq_panic (safe_readInto (BR.safe_read _)) h
    obtain ⟨afc, s6, h6, h⟩ := bind_eq_panic (safe_lift (BR.safe_read _)) h
    obtain ⟨_, s7, h7, h⟩ := bind_eq_panic (Go.Safe.modify _) h
    obtain ⟨_, s8, h8, h⟩ := bind_eq_panic (safe_readInto (BR.safe_read _)) h
    obtain ⟨size, s9, h9, hL⟩ :=
      bind_eq_panic (Go.Safe.opt (Go.Safe.bind safe_readAdaptation fun _ => Go.Safe.pure _)) h
    obtain ⟨k0, _⟩ := lift_inv h0
    obtain ⟨v1, k1, _⟩ := readInto_inv h1
    obtain ⟨v2, k2, _⟩ := readInto_inv h2
    obtain ⟨v3, k3, _⟩ := readInto_inv h3
    obtain ⟨v4, k4, _⟩ := readInto_inv h4
    obtain ⟨v5, k5, _⟩ := readInto_inv h5
    obtain ⟨k6, _⟩ := lift_inv h6
    simp only [Go.modify_apply, Prod.mk.injEq] at h7
    obtain ⟨v8, k8, _⟩ := readInto_inv h8
    obtain ⟨t4, w4⟩ := read_bits k4
    obtain ⟨t5, w5⟩ := read_bits k5
    obtain ⟨t6, _⟩ := read_bits k6
    obtain ⟨t8, w8⟩ := read_bits k8
    have b7 : s7.br = s6.br := by rw [← h7.2]
    rw [b7] at t8
    have T := (BR.read1_inv k1).trans ((BR.read1_inv k2).trans ((BR.read1_inv k3).trans
      (t4.trans (t5.trans (t6.trans t8)))))
    have hc : (afc == 1 || afc == 3) = true := by
      cases hc : (afc == 1 || afc == 3)
      · rw [hc] at hL; simp at hL
      · rfl
    rw [hc] at hL
    obtain ⟨hs, rfl⟩ := readPayload_panic hL
    rcases opt_inv h9 with ⟨c9, h9⟩ | ⟨c9, rfl, rfl⟩
    · obtain ⟨len, s10, h9, h10⟩ := Go.bind_eq_ok h9
      obtain ⟨af, hn, _⟩ := readAdaptation_inv h9
      simp only [Go.pure_apply, Prod.mk.injEq, Res.ok.injEq] at h10
      obtain ⟨rfl, rfl⟩ := h10
      have e3 : afc = 3 := by simp at hc c9; omega
      subst e3
      refine ⟨⟨v1, v2, v3, v4, v5, v8⟩, _, _, _, af, len, ⟨w4, w5, w8⟩, k0, T, hn, ?_⟩
      by_cases hlt : len ≤ 183
      · rw [sub32_le (by simp [maxPayloadSize]; omega) (by simp [maxPayloadSize])] at hs
        simp [maxPayloadSize] at hs; omega
      · omega
    · simp [maxPayloadSize] at hs
  · rintro ⟨h, b1, b2, b3, af, len, ⟨w1, w2, w3⟩, hs, ht, hn, hl⟩
    obtain ⟨p0, br⟩ := s
    have w2' : h.tsc < 2 ^ 2 := w2
    have w3' : h.cc < 2 ^ 4 := w3
    have hl' := (newAdaptationField_len hn).2
    have hz : sub32 maxPayloadSize (len + 1) > maxPayloadSize := by
      simp only [sub32, maxPayloadSize]; omega
    obtain ⟨bits, pos, stop, later⟩ := b1
    obtain ⟨bits2, pos2, stop2, later2⟩ := b2
    obtain ⟨q1, q2, q3, q4⟩ := ht
    simp only at q1 q2 q3 q4
    have hlen : (hdrTail h 3).length = 24 := by simp [hdrTail]
    rw [hlen] at q2
    subst q1 q2 q3 q4
    rw [next_eq]
    simp only at hs
    simp only [Go.bind_apply, St.lift, hs, afterSync, hdrTail, List.cons_append, List.append_assoc,
      readInto, BR.read1_cons, BR.read_bitsOf, Go.modify_apply]
    simp [readAdaptation, hn, readPayload, hz]

/-- A packet with an adaptation field of 184 bytes meets the right hand side (behind a byte of noise); ... -/
example : (Packet.next ⟨Packet.new, BR.ofBytes (1 :: 0x47 :: 0 :: 0 :: 0x30 :: 184 :: List.replicate 184 0)⟩).1 = .panic := by
  decide +kernel

/-- ... with one of 183 bytes, or with the input ending within the adaptation field, nothing panics. -/
example : (Packet.next ⟨Packet.new, BR.ofBytes (1 :: 0x47 :: 0 :: 0 :: 0x30 :: 183 :: List.replicate 183 0)⟩).1 = .ok () ∧
    (Packet.next ⟨Packet.new, BR.ofBytes (1 :: 0x47 :: 0 :: 0 :: 0x30 :: 184 :: List.replicate 183 0)⟩).1 ≠ .panic := by
  decide +kernel

end Mpeg.TS
