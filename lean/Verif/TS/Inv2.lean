/-
Packet-level facts on arbitrary input.
-/
import Verif.TS.Inv
set_option linter.all false
namespace Mpeg.TS
open Spec

theorem lift_inv {α : Type} {m : Go BR α} {s s' : St} {a : α} (h : St.lift m s = (.ok a, s')) :
    m s.br = (.ok a, s'.br) ∧ s'.pkt = s.pkt := by
  unfold St.lift at h
  simp only [Prod.mk.injEq] at h
  obtain ⟨h1, rfl⟩ := h
  exact ⟨Prod.ext h1 rfl, rfl⟩

theorem readInto_inv {α : Type} {m : Go BR α} {z : α} {set : α → Packet → Packet} {s s' : St} {u : Unit}
    (h : readInto m z set s = (.ok u, s')) :
    ∃ a, m s.br = (.ok a, s'.br) ∧ s'.pkt = set a s.pkt := by
  unfold readInto at h
  cases hm : m s.br with
  | mk r b =>
    rw [hm] at h
    cases r <;> simp at h
    subst h
    exact ⟨_, rfl, rfl⟩

theorem readAdaptation_inv {s s' : St} {len : Nat} (h : readAdaptation s = (.ok len, s')) :
    ∃ af, newAdaptationField s.br = (.ok (af, len), s'.br) ∧
      s'.pkt = { s.pkt with adaptationField := some af } := by
  unfold readAdaptation at h
  cases hm : newAdaptationField s.br with
  | mk r b =>
    rw [hm] at h
    rcases r with ⟨af, l⟩ | e | _ | _ <;> simp at h
    obtain ⟨rfl, rfl⟩ := h
    exact ⟨_, rfl, rfl⟩

theorem readPayload_inv {size : Nat} {s s' : St} {u : Unit} (h : readPayload size s = (.ok u, s')) :
    size ≤ 184 ∧ ∃ bs, bs.length = size ∧ BR.Took s.br (bitsOfBytes bs) s'.br ∧
      s'.pkt = { s.pkt with payloadLen := size, buf := bs ++ s.pkt.buf.drop size } := by
  unfold readPayload at h
  split at h
  · simp at h
  · rename_i hs
    simp [maxPayloadSize] at hs
    refine ⟨by omega, ?_⟩
    cases hm : BR.readFull size s.br with
    | mk r b =>
      rw [hm] at h
      rcases r with ⟨bs, e⟩ | e | _ | _ <;> simp at h
      rcases e with _ | e
      · simp at h
        obtain ⟨t, e⟩ := BR.readFull_inv hm
        subst h
        exact ⟨bs, e, t, by simp [e]⟩
      · cases e <;> simp at h

/-- A successful parse after the sync byte, taken apart. -/
theorem afterSync_inv {s s' : St} {u : Unit} (h : afterSync s = (.ok u, s')) :
    ∃ (l : List Bool) (b : BR), BR.Took s.br l b ∧ l.length = 24 ∧
      s'.pkt.adaptationFieldControl < 4 ∧
      ((s'.pkt.adaptationFieldControl = 0 ∧ s'.br = b ∧ s'.pkt.payload = s.pkt.payload) ∨
       (s'.pkt.adaptationFieldControl = 1 ∧ s'.pkt.payload.length = 184 ∧
          BR.Took b (bitsOfBytes s'.pkt.payload) s'.br) ∨
       (∃ af len, s'.pkt.adaptationFieldControl = 2 ∧ newAdaptationField b = (.ok (af, len), s'.br) ∧
          s'.pkt.adaptationField = some af ∧ s'.pkt.payload = s.pkt.payload) ∨
       (∃ af len b', s'.pkt.adaptationFieldControl = 3 ∧ newAdaptationField b = (.ok (af, len), b') ∧
          s'.pkt.adaptationField = some af ∧ sub32 184 (len + 1) ≤ 184 ∧
          s'.pkt.payload.length = sub32 184 (len + 1) ∧
          BR.Took b' (bitsOfBytes s'.pkt.payload) s'.br)) := by
  unfold afterSync at h
  obtain ⟨_, s1, h1, h⟩ := Go.bind_eq_ok h
  obtain ⟨_, s2, h2, h⟩ := Go.bind_eq_ok h
  obtain ⟨_, s3, h3, h⟩ := Go.bind_eq_ok h
  obtain ⟨_, s4, h4, h⟩ := Go.bind_eq_ok h
  obtain ⟨_, s5, h5, h⟩ := Go.bind_eq_ok h
  obtain ⟨afc, s6, h6, h⟩ := Go.bind_eq_ok h
  obtain ⟨_, s7, h7, h⟩ := Go.bind_eq_ok h
  obtain ⟨_, s8, h8, h⟩ := Go.bind_eq_ok h
  obtain ⟨size, s9, h9, hL⟩ := Go.bind_eq_ok h
  obtain ⟨_, k1, p1⟩ := readInto_inv h1
  obtain ⟨_, k2, p2⟩ := readInto_inv h2
  obtain ⟨_, k3, p3⟩ := readInto_inv h3
  obtain ⟨_, k4, p4⟩ := readInto_inv h4
  obtain ⟨_, k5, p5⟩ := readInto_inv h5
  obtain ⟨k6, p6⟩ := lift_inv h6
  simp only [Go.modify_apply, Prod.mk.injEq] at h7
  obtain ⟨_, k8, p8⟩ := readInto_inv h8
  have t1 := BR.read1_inv k1
  have t2 := BR.read1_inv k2
  have t3 := BR.read1_inv k3
  obtain ⟨l4, t4, e4, _⟩ := BR.read_inv k4
  obtain ⟨l5, t5, e5, _⟩ := BR.read_inv k5
  obtain ⟨l6, t6, e6, v6⟩ := BR.read_inv k6
  obtain ⟨l8, t8, e8, _⟩ := BR.read_inv k8
  have b7 : s7.br = s6.br := by rw [← h7.2]
  rw [b7] at t8
  have hafc : afc < 4 := by have := natOfBits_lt l6; rw [e6] at this; omega
  have T := ((((((t1.trans t2).trans t3).trans t4).trans t5).trans t6).trans t8)
  have a8 : s8.pkt.adaptationFieldControl = afc := by rw [p8, ← h7.2]
  have y8 : s8.pkt.payload = s.pkt.payload := by
    rw [p8, ← h7.2, p6, p5, p4, p3, p2, p1]; rfl
  refine ⟨_, s8.br, T, by simp; omega, ?_⟩
  have pay : ∀ {n : Nat} {x y : St}, readPayload n x = (.ok u, y) →
      n ≤ 184 ∧ y.pkt.payload.length = n ∧ BR.Took x.br (bitsOfBytes y.pkt.payload) y.br ∧
      y.pkt.adaptationField = x.pkt.adaptationField ∧
      y.pkt.adaptationFieldControl = x.pkt.adaptationFieldControl := by
    intro n x y hh
    obtain ⟨hle, bs, e, t, p⟩ := readPayload_inv hh
    have : y.pkt.payload = bs := by rw [p]; simp [Packet.payload, ← e]
    refine ⟨hle, by rw [this, e], by rw [this]; exact t, by rw [p], by rw [p]⟩
  rcases opt_inv h9 with ⟨c9, h9⟩ | ⟨c9, rfl, rfl⟩
  · obtain ⟨len, s10, h9, h10⟩ := Go.bind_eq_ok h9
    obtain ⟨af, hn, hp⟩ := readAdaptation_inv h9
    simp only [Go.pure_apply, Prod.mk.injEq, Res.ok.injEq] at h10
    obtain ⟨rfl, rfl⟩ := h10
    rcases opt_inv hL with ⟨c, hL⟩ | ⟨c, _, rfl⟩
    · obtain ⟨q1, q2, q3, q4, q5⟩ := pay hL
      have e3 : afc = 3 := by simp at c c9; omega
      have e3' : s'.pkt.adaptationFieldControl = 3 := by rw [q5, hp]; exact a8.trans e3
      refine ⟨by omega, ?_⟩
      exact Or.inr (Or.inr (Or.inr ⟨af, len, _, e3', hn, by rw [q4, hp], q1, q2, q3⟩))
    · have e2 : afc = 2 := by simp at c c9; omega
      have e2' : s'.pkt.adaptationFieldControl = 2 := by rw [hp]; exact a8.trans e2
      refine ⟨by omega, ?_⟩
      refine Or.inr (Or.inr (Or.inl ⟨af, len, e2', hn, by rw [hp], ?_⟩))
      rw [← y8, hp]; rfl
  · rcases opt_inv hL with ⟨c, hL⟩ | ⟨c, _, rfl⟩
    · obtain ⟨q1, q2, q3, q4, q5⟩ := pay hL
      have e1 : afc = 1 := by simp at c c9; omega
      have e1' : s'.pkt.adaptationFieldControl = 1 := by rw [q5]; exact a8.trans e1
      refine ⟨by omega, ?_⟩
      exact Or.inr (Or.inl ⟨e1', q2, q3⟩)
    · have e0 : afc = 0 := by simp at c c9; omega
      refine ⟨by omega, ?_⟩
      exact Or.inl ⟨a8.trans e0, rfl, y8⟩

theorem isAligned_sync {s : BR} (h8 : s.pos % 8 = 0) (hs : natOfBits (s.bits.take 8) = 0x47)
    (hl : 8 ≤ s.bits.length) : sync s = (.ok (), s.adv 8) := by
  simp [sync, isAligned, BR.isAligned, h8, Go.bind_apply, BR.peek_ok hl, hs, syncByte, BR.skip_ok hl]

/-! ### panics -/

theorem bind_eq_panic {σ α β : Type} {m : Go σ α} {f : α → Go σ β} {s s' : σ} (hm : Go.Safe m)
    (h : (m >>= f) s = (.panic, s')) : ∃ a s1, m s = (.ok a, s1) ∧ f a s1 = (.panic, s') := by
  rw [Go.bind_apply] at h
  have := hm s
  cases hh : m s with
  | mk r s1 =>
    rw [hh] at h this
    cases r <;> simp at h this
    exact ⟨_, _, rfl, h⟩

theorem bind_ne_hang {σ α β : Type} {m : Go σ α} {f : α → Go σ β} {s : σ}
    (hm : (m s).1 ≠ .hang) (hf : ∀ a s1, m s = (.ok a, s1) → (f a s1).1 ≠ .hang) :
    ((m >>= f) s).1 ≠ .hang := by
  rw [Go.bind_apply]
  cases hh : m s with
  | mk r s1 =>
    rw [hh] at hm
    cases r <;> simp at hm ⊢
    exact hf _ _ hh

theorem safe_readFullUE (n : Nat) : Go.Safe (readFullUE n) := by
  unfold readFullUE
  refine Go.Safe.bind (BR.safe_readFull n) ?_
  rintro ⟨bs, e⟩
  rcases e with _ | e
  · exact Go.Safe.pure _
  · cases e <;> exact Go.Safe.throw _

theorem safe_newTransportPrivateData : Go.Safe newTransportPrivateData :=
  Go.Safe.bind (BR.safe_read 8) fun _ =>
    Go.Safe.bind (Go.Safe.opt (safe_readFullUE _)) fun _ => Go.Safe.pure _

theorem safe_newAdaptationExt : Go.Safe newAdaptationExt := by
  unfold newAdaptationExt extFlags extLTW extPiecewise extSplice
  repeat' first
    | apply Go.Safe.pure
    | apply BR.safe_read
    | apply BR.safe_read1
    | apply Go.Safe.ignoreErr
    | apply BR.safe_skip
    | apply Go.Safe.opt
    | refine Go.Safe.bind ?_ ?_
    | intro _

theorem safe_newAdaptationField : Go.Safe newAdaptationField := by
  unfold newAdaptationField afFlags readPcr
  repeat' first
    | apply Go.Safe.pure
    | apply BR.safe_read
    | apply BR.safe_read1
    | apply Go.Safe.ignoreErr
    | apply BR.safe_skip
    | apply safe_readFullUE
    | apply safe_newTransportPrivateData
    | apply safe_newAdaptationExt
    | apply Go.Safe.opt
    | apply Go.Safe.map
    | refine Go.Safe.bind ?_ ?_
    | intro _

theorem safe_realignLoop (n : Nat) : Go.Safe (realignLoop n) := by
  induction n with
  | zero => exact Go.Safe.throw _
  | succ n ih =>
    unfold realignLoop
    refine Go.Safe.bind (BR.safe_peek 8) fun _ => Go.Safe.ite (Go.Safe.pure _) ?_
    exact Go.Safe.bind (BR.safe_skip 8) fun _ => ih

theorem safe_sync : Go.Safe sync := by
  unfold sync
  refine Go.Safe.bind ?_ fun _ => Go.Safe.bind (Go.Safe.opt ?_) fun _ => BR.safe_skip 8
  · intro s
    unfold isAligned
    split
    · simp
    · exact Go.Safe.bind (BR.safe_peek 8) (fun _ => Go.Safe.pure _) s
  · intro s
    unfold realign
    split
    · exact Go.Safe.bind BR.safe_align (fun _ => safe_realignLoop _) s
    · exact safe_realignLoop _ s

theorem safe_lift {α : Type} {m : Go BR α} (h : Go.Safe m) : Go.Safe (St.lift m) := by
  intro s; unfold St.lift; exact h s.br

theorem safe_readInto {α : Type} {m : Go BR α} {z : α} {set : α → Packet → Packet} (h : Go.Safe m) :
    Go.Safe (readInto m z set) := by
  intro s
  have := h s.br
  unfold readInto
  cases hm : m s.br with
  | mk r b =>
    rw [hm] at this
    cases r <;> simp at this ⊢

theorem safe_readAdaptation : Go.Safe readAdaptation := by
  intro s
  have := safe_newAdaptationField s.br
  unfold readAdaptation
  cases hm : newAdaptationField s.br with
  | mk r b =>
    rw [hm] at this
    rcases r with ⟨af, l⟩ | e | _ | _ <;> simp at this ⊢

theorem readPayload_panic {size : Nat} {s s' : St} (h : readPayload size s = (.panic, s')) :
    size > 184 ∧ s' = s := by
  unfold readPayload at h
  split at h
  · simp at h; rename_i hs; exact ⟨hs, h.symm⟩
  · have := BR.safe_readFull size s.br
    cases hm : BR.readFull size s.br with
    | mk r b =>
      rw [hm] at h this
      rcases r with ⟨bs, e⟩ | e | _ | _ <;> simp at h this
      rcases e with _ | e
      · simp at h
      · cases e <;> simp at h

theorem readPayload_ne_hang {size : Nat} {s : St} : (readPayload size s).1 ≠ .hang := by
  unfold readPayload
  split
  · simp
  · have := BR.safe_readFull size s.br
    cases hm : BR.readFull size s.br with
    | mk r b =>
      rw [hm] at this
      rcases r with ⟨bs, e⟩ | e | _ | _ <;> simp at this ⊢
      rcases e with _ | e
      · simp
      · cases e <;> simp

theorem newAdaptationField_len {af : AdaptationField} {len : Nat} {s s' : BR}
    (h : newAdaptationField s = (.ok (af, len), s')) : af.length = len ∧ len < 256 := by
  unfold newAdaptationField at h
  obtain ⟨len', s1, h1, h⟩ := Go.bind_eq_ok h
  obtain ⟨_, _, _, h⟩ := Go.bind_eq_ok h
  obtain ⟨_, _, _, h⟩ := Go.bind_eq_ok h
  obtain ⟨_, _, _, h⟩ := Go.bind_eq_ok h
  obtain ⟨_, _, _, h⟩ := Go.bind_eq_ok h
  obtain ⟨_, _, _, h⟩ := Go.bind_eq_ok h
  obtain ⟨_, _, _, h⟩ := Go.bind_eq_ok h
  obtain ⟨_, _, _, h⟩ := Go.bind_eq_ok h
  simp at h
  obtain ⟨⟨rfl, rfl⟩, _⟩ := h
  obtain ⟨l1, t1, e1, ev⟩ := BR.read_inv h1
  exact ⟨rfl, by have := natOfBits_lt l1; rw [e1] at this; omega⟩

theorem next_panic {s s' : St} (h : Packet.next s = (.panic, s')) :
    s'.pkt.adaptationFieldControl = 3 ∧ ∃ af, s'.pkt.adaptationField = some af ∧ af.length > 183 := by
  rw [next_eq] at h
  obtain ⟨_, _, _, h⟩ := bind_eq_panic (safe_lift safe_sync) h
  unfold afterSync at h
  obtain ⟨_, _, _, h⟩ := bind_eq_panic (safe_readInto BR.safe_read1) h
  obtain ⟨_, _, _, h⟩ := bind_eq_panic (safe_readInto BR.safe_read1) h
  obtain ⟨_, _, _, h⟩ := bind_eq_panic (safe_readInto BR.safe_read1) h
  obtain ⟨_, _, _, h⟩ := bind_eq_panic (safe_readInto (BR.safe_read _)) h
  obtain ⟨_, _, _, h⟩ := bind_eq_panic (safe_readInto (BR.safe_read _)) h
  obtain ⟨afc, s6, _, h⟩ := bind_eq_panic (safe_lift (BR.safe_read _)) h
  obtain ⟨_, s7, h7, h⟩ := bind_eq_panic (Go.Safe.modify _) h
  obtain ⟨_, s8, h8, h⟩ := bind_eq_panic (safe_readInto (BR.safe_read _)) h
  obtain ⟨size, s9, h9, hL⟩ := bind_eq_panic (Go.Safe.opt (Go.Safe.bind safe_readAdaptation fun _ => Go.Safe.pure _)) h
  simp only [Go.modify_apply, Prod.mk.injEq] at h7
  obtain ⟨_, k8, p8⟩ := readInto_inv h8
  have a8 : s8.pkt.adaptationFieldControl = afc := by rw [p8, ← h7.2]
  have : (afc == 1 || afc == 3) = true := by
    cases hc : (afc == 1 || afc == 3)
    · rw [hc] at hL; simp at hL
    · rfl
  rw [this] at hL
  obtain ⟨hs, rfl⟩ := readPayload_panic hL
  rcases opt_inv h9 with ⟨c9, h9⟩ | ⟨c9, rfl, rfl⟩
  · obtain ⟨len, s10, h9, h10⟩ := Go.bind_eq_ok h9
    obtain ⟨af, hn, hp⟩ := readAdaptation_inv h9
    simp only [Go.pure_apply, Prod.mk.injEq, Res.ok.injEq] at h10
    obtain ⟨rfl, rfl⟩ := h10
    obtain ⟨e1, e2⟩ := newAdaptationField_len hn
    refine ⟨by rw [hp]; simp at this c9; exact a8.trans (by omega), af, by rw [hp], ?_⟩
    by_cases hlt : len ≤ 183
    · rw [sub32_le (by simp [maxPayloadSize]; omega) (by simp [maxPayloadSize])] at hs
      simp [maxPayloadSize] at hs; omega
    · omega
  · simp [maxPayloadSize] at hs

theorem next_ne_hang (s : St) : (Packet.next s).1 ≠ .hang := by
  rw [next_eq]
  refine bind_ne_hang (safe_lift safe_sync _).2 fun _ _ _ => ?_
  unfold afterSync
  refine bind_ne_hang (safe_readInto BR.safe_read1 _).2 fun _ _ _ => ?_
  refine bind_ne_hang (safe_readInto BR.safe_read1 _).2 fun _ _ _ => ?_
  refine bind_ne_hang (safe_readInto BR.safe_read1 _).2 fun _ _ _ => ?_
  refine bind_ne_hang (safe_readInto (BR.safe_read _) _).2 fun _ _ _ => ?_
  refine bind_ne_hang (safe_readInto (BR.safe_read _) _).2 fun _ _ _ => ?_
  refine bind_ne_hang (safe_lift (BR.safe_read _) _).2 fun _ _ _ => ?_
  refine bind_ne_hang (Go.Safe.modify _ _).2 fun _ _ _ => ?_
  refine bind_ne_hang (safe_readInto (BR.safe_read _) _).2 fun _ _ _ => ?_
  refine bind_ne_hang (Go.Safe.opt (Go.Safe.bind safe_readAdaptation fun _ => Go.Safe.pure _) _).2
    fun _ _ _ => ?_
  unfold Go.opt
  split
  · exact readPayload_ne_hang
  · simp

/-! ### resynchronisation -/

section
variable {r : List Bool} {pos : Nat} {stop : Err} {later : List (List Bool × Err)}

theorem realignLoop_garbage (g : List UInt8) (hg : ∀ b ∈ g, b.toNat ≠ 0x47) (n : Nat)
    (hn : g.length < n) :
    realignLoop n ⟨bitsOfBytes g ++ (bitsOf 8 0x47 ++ r), pos, stop, later⟩ =
      (.ok (), ⟨bitsOf 8 0x47 ++ r, pos + 8 * g.length, stop, later⟩) := by
  induction g generalizing n pos with
  | nil =>
    obtain ⟨m, rfl⟩ : ∃ m, n = m + 1 := ⟨n - 1, by simp at hn; omega⟩
    simp [realignLoop, Go.bind_apply, syncByte]
  | cons b g ih =>
    obtain ⟨m, rfl⟩ : ∃ m, n = m + 1 := ⟨n - 1, by simp at hn; omega⟩
    have hb : b.toNat % 2 ^ 8 ≠ 0x47 := by
      rw [Nat.mod_eq_of_lt (by have := b.toNat_lt; omega)]; exact hg b (by simp)
    simp only [realignLoop, bitsOfBytes_cons, List.append_assoc, Go.bind_apply, BR.peek_bitsOf,
      syncByte, Go.ite_apply, if_neg hb, BR.skip_bitsOf]
    rw [ih (fun x hx => hg x (by simp [hx])) m (by simp at hn; omega)]
    simp; omega

theorem realignLoop_fail (g : List UInt8) (hg : ∀ b ∈ g, b.toNat ≠ 0x47) :
    realignLoop g.length ⟨bitsOfBytes g ++ r, pos, stop, later⟩ =
      (.err .noSyncByte, ⟨r, pos + 8 * g.length, stop, later⟩) := by
  induction g generalizing pos with
  | nil => simp [realignLoop]
  | cons b g ih =>
    have hb : b.toNat % 2 ^ 8 ≠ 0x47 := by
      rw [Nat.mod_eq_of_lt (by have := b.toNat_lt; omega)]; exact hg b (by simp)
    simp only [realignLoop, List.length_cons, bitsOfBytes_cons, List.append_assoc, Go.bind_apply,
      BR.peek_bitsOf, syncByte, Go.ite_apply, if_neg hb, BR.skip_bitsOf]
    rw [ih (fun x hx => hg x (by simp [hx]))]
    simp; omega

/-- the sync search, from any position: `pre` is the rest of the current byte -/
theorem sync_garbage (pre : List Bool) (hpre : pre.length = (8 - pos % 8) % 8)
    (g : List UInt8) (hg : ∀ b ∈ g, b.toNat ≠ 0x47) (hn : g.length ≤ 187) :
    sync ⟨pre ++ (bitsOfBytes g ++ (bitsOf 8 0x47 ++ r)), pos, stop, later⟩ =
      (.ok (), ⟨r, pos + pre.length + 8 * g.length + 8, stop, later⟩) := by
  by_cases h8 : pos % 8 = 0
  · have hp0 : pre = [] := List.length_eq_zero_iff.mp (by omega)
    subst hp0
    cases g with
    | nil => simpa using sync_enc h8
    | cons b g =>
      have hb : b.toNat % 2 ^ 8 ≠ 0x47 := by
        rw [Nat.mod_eq_of_lt (by have := b.toNat_lt; omega)]; exact hg b (by simp)
      have := @realignLoop_garbage r pos stop later (b :: g) hg 188 (by simp at hn ⊢; omega)
      simp only [bitsOfBytes_cons, List.append_assoc] at this
      have hb' : (b.toNat % 2 ^ 8 == 71) = false := by simpa using hb
      simp only [sync, isAligned, BR.isAligned, h8, Go.bind_apply, List.nil_append, bitsOfBytes_cons,
        List.append_assoc, BR.peek_bitsOf, syncByte, hb', realign, this, Go.pure_apply, Bool.not_false,
        Go.opt_true, beq_self_eq_true, Bool.true_eq_false, if_false, BR.skip_bitsOf]
      simp
  · have h8' : (pos % 8 == 0) = false := by simpa using h8
    have ha : BR.align ⟨pre ++ (bitsOfBytes g ++ (bitsOf 8 0x47 ++ r)), pos, stop, later⟩ =
        (.ok (), ⟨bitsOfBytes g ++ (bitsOf 8 0x47 ++ r), pos + pre.length, stop, later⟩) := by
      simp [BR.align, BR.adv, ← hpre]
    simp only [sync, isAligned, BR.isAligned, h8', Go.bind_apply, realign, Bool.not_false, if_true,
      Go.opt_true, ha, realignLoop_garbage g hg 188 (by omega), BR.skip_bitsOf]

theorem sync_fail (pre : List Bool) (hpre : pre.length = (8 - pos % 8) % 8)
    (g : List UInt8) (hg : ∀ b ∈ g, b.toNat ≠ 0x47) (hn : g.length = 188) :
    sync ⟨pre ++ (bitsOfBytes g ++ r), pos, stop, later⟩ =
      (.err .noSyncByte, ⟨r, pos + pre.length + 8 * 188, stop, later⟩) := by
  by_cases h8 : pos % 8 = 0
  · have hp0 : pre = [] := List.length_eq_zero_iff.mp (by omega)
    subst hp0
    cases g with
    | nil => simp at hn
    | cons b g =>
      have hb : b.toNat % 2 ^ 8 ≠ 0x47 := by
        rw [Nat.mod_eq_of_lt (by have := b.toNat_lt; omega)]; exact hg b (by simp)
      have := @realignLoop_fail r pos stop later (b :: g) hg
      rw [hn] at this
      simp only [bitsOfBytes_cons, List.append_assoc] at this
      have hb' : (b.toNat % 2 ^ 8 == 71) = false := by simpa using hb
      simp only [sync, isAligned, BR.isAligned, h8, Go.bind_apply, List.nil_append, bitsOfBytes_cons,
        List.append_assoc, BR.peek_bitsOf, syncByte, hb', realign, this, Go.pure_apply, Bool.not_false,
        Go.opt_true, beq_self_eq_true, Bool.true_eq_false, if_false]
      simp
  · have h8' : (pos % 8 == 0) = false := by simpa using h8
    have ha : BR.align ⟨pre ++ (bitsOfBytes g ++ r), pos, stop, later⟩ =
        (.ok (), ⟨bitsOfBytes g ++ r, pos + pre.length, stop, later⟩) := by
      simp [BR.align, BR.adv, ← hpre]
    have := @realignLoop_fail r (pos + pre.length) stop later g hg
    rw [hn] at this
    simp only [sync, isAligned, BR.isAligned, h8', Go.bind_apply, realign, Bool.not_false, if_true,
      Go.opt_true, ha, this]

end
end Mpeg.TS
