/-
C124, transport streams: Next and the readers do not look at what follows the packets they need.
-/
import Verif.Base.Local
import Verif.TS.ConserveProps
set_option linter.all false
namespace Mpeg.TS
open BR (Bytes AtBit Dead Kept kept_bytes kept_at)

theorem loc_readFullUE' {I J : BR → Prop} {n : Nat} (hk : Kept I J (8 * n)) : Loc SrcLens.self 0 I J (readFullUE n) := by
  intro s a s' hi h
  unfold readFullUE at h
  obtain ⟨⟨bs, e⟩, s1, h1, h2⟩ := Go.bind_eq_ok h
  cases e with
  | some e => cases e <;> simp at h2
  | none =>
    simp only [Go.pure_apply, Prod.mk.injEq, Res.ok.injEq] at h2
    obtain ⟨rfl, rfl⟩ := h2
    obtain ⟨hj, e⟩ := BR.readFull_loc hk hi h1
    refine ⟨hj, e.lift (S := SrcLens.self) fun x y hx => ?_⟩
    show readFullUE n x = (.ok bs, y)
    unfold readFullUE
    rw [Go.bind_ok hx]; rfl
theorem loc_readFullUE (n : Nat) : Loc SrcLens.self 0 Bytes Bytes (readFullUE n) := loc_readFullUE' (kept_bytes _)
theorem loc_readFullUE_at (n : Nat) : Loc SrcLens.self 0 (AtBit 0) (AtBit 0) (readFullUE n) :=
  (loc_readFullUE' (kept_at 0 (8 * n))).weaken (fun _ h => h) fun _ h => BR.at_mod (by omega) h

/-- reads of whole bytes -/
theorem loc_bytes {k : Nat} (hk : k % 8 = 0) : Loc SrcLens.self 0 (AtBit 0) (AtBit 0) (BR.read k) :=
  (BR.loc_read (kept_at 0 k)).weaken (fun _ h => h) fun _ h => BR.at_mod (by omega) h

theorem loc_private : Loc SrcLens.self 0 (AtBit 0) (AtBit 0) newTransportPrivateData :=
  (loc_bytes rfl).bind fun _ => (Loc.opt (loc_readFullUE_at _)).bind fun _ => Loc.pure _

theorem loc_extFlags (c : Bool) : Loc SrcLens.self 0 (AtBit 0) (AtBit 0) (extFlags c) :=
  Loc.opt <| ((BR.loc_read1 (kept_at 0 1)).bind fun _ => (BR.loc_read1 (kept_at 1 1)).bind fun _ => (BR.loc_read1 (kept_at 2 1)).bind fun _ =>
    (BR.loc_skip_there (i := 3) (k := 5) rfl (by decide)).bind fun _ => Loc.pure _).weaken (fun _ h => h) fun _ h => BR.at_mod rfl h

theorem loc_extLTW (c : Bool) : Loc SrcLens.self 0 Bytes Bytes (extLTW c) :=
  Loc.opt <| (BR.loc_read1 (kept_bytes 1)).bind fun _ => (BR.loc_read (kept_bytes _)).bind fun _ => Loc.pure _
theorem loc_extPiecewise (c : Bool) : Loc SrcLens.self 0 Bytes Bytes (extPiecewise c) :=
  Loc.opt <| BR.locD_skip.kill (fun _ => BR.loc_read (kept_bytes _)) fun _ _ b s' hd => BR.not_read (by decide) hd b s'
theorem not_bind {σ α β : Type} {m : Go σ α} {f : α → Go σ β} {s : σ} (h : ∀ a s', m s ≠ (.ok a, s')) (b : β) (s'' : σ) : (m >>= f) s ≠ (.ok b, s'') := by
  intro he
  obtain ⟨a, s', h1, _⟩ := Go.bind_eq_ok he
  exact h a s' h1
theorem loc_extSplice (c : Bool) : Loc SrcLens.self 0 Bytes Bytes (extSplice c) :=
  Loc.opt <| (BR.loc_read (kept_bytes _)).bind fun _ => (BR.loc_read (kept_bytes _)).bind fun _ =>
    BR.locD_skip.kill (fun _ => (BR.loc_read (kept_bytes _)).bind fun _ =>
      BR.locD_skip.kill (fun _ => (BR.loc_read (kept_bytes _)).bind fun _ => Loc.pure _)
        fun _ s b s' hd => not_bind (fun a s' => BR.not_read (by decide) hd a s') b s')
      fun _ s b s' hd => not_bind (fun a s' => BR.not_read (by decide) hd a s') b s'
theorem loc_ext : Loc SrcLens.self 0 (AtBit 0) Bytes newAdaptationExt :=
  (loc_bytes rfl).bind fun _ => ((loc_extFlags _).weaken (fun _ h => h) fun _ h => BR.at_bytes h).bind fun _ => (loc_extLTW _).bind fun _ =>
    (loc_extPiecewise _).bind fun _ => (loc_extSplice _).bind fun _ => Loc.pure _

theorem loc_pcr : Loc SrcLens.self 0 (AtBit 0) (AtBit 0) readPcr :=
  ((BR.loc_read (kept_at 0 33)).bind fun _ => (BR.loc_read (kept_at 33 6)).bind fun _ => (BR.loc_read (kept_at 39 9)).bind fun _ =>
    Loc.pure _).weaken (fun _ h => h) fun _ h => BR.at_mod rfl h
theorem loc_afFlags (c : Bool) : Loc SrcLens.self 0 (AtBit 0) (AtBit 0) (afFlags c) :=
  Loc.opt <| ((BR.loc_read1 (kept_at 0 1)).bind fun _ => (BR.loc_read1 (kept_at 1 1)).bind fun _ => (BR.loc_read1 (kept_at 2 1)).bind fun _ =>
    (BR.loc_read1 (kept_at 3 1)).bind fun _ => (BR.loc_read1 (kept_at 4 1)).bind fun _ => (BR.loc_read1 (kept_at 5 1)).bind fun _ =>
    (BR.loc_read1 (kept_at 6 1)).bind fun _ => (BR.loc_read1 (kept_at 7 1)).bind fun _ => Loc.pure _).weaken (fun _ h => h) fun _ h => BR.at_mod rfl h
theorem loc_af : Loc SrcLens.self 0 (AtBit 0) Bytes newAdaptationField :=
  (loc_bytes rfl).bind fun _ => (loc_afFlags _).bind fun _ => (Loc.opt loc_pcr).bind fun _ => (Loc.opt loc_pcr).bind fun _ =>
    (Loc.opt (loc_bytes rfl)).bind fun _ => (Loc.opt (loc_private.map _)).bind fun _ =>
    (Loc.opt' (loc_ext.map _) fun _ h => BR.at_bytes h).bind fun _ => (Loc.opt (loc_readFullUE _)).bind fun _ => Loc.pure _

/-- a call that looks at the position first -/
theorem loc_of_pos {α : Type} {p : Nat} {I J : BR → Prop} {m : Go BR α} {m' : Nat → Go BR α} (hm : ∀ s, m s = m' s.pos s)
    (h : ∀ i, Loc SrcLens.self p (fun s => I s ∧ s.pos = i) J (m' i)) : Loc SrcLens.self p I J m := by
  intro s a s' hi hs
  obtain ⟨hj, k, h1, h2, h3⟩ := h s.pos s a s' ⟨hi, rfl⟩ (by rw [← hm]; exact hs)
  refine ⟨hj, k, h1, h2, fun b hb hp => ?_⟩
  show m b = _
  rw [hm, show b.pos = s.pos from hb]
  exact h3 b hb hp

/-- what `isAligned` finds: nothing is consumed, and it is at a byte boundary if it says so -/
theorem loc_isAligned {I : BR → Prop} : Loc SrcLens.self 8 I (fun s => I s) isAligned := by
  refine loc_of_pos (m' := fun i => if (i % 8 == 0) = false then pure false else do let v ← BR.peek 8; pure (v == syncByte)) (fun s => ?_) fun i => ?_
  · unfold isAligned
    show _ = (if s.isAligned = false then (pure false : Go BR Bool) else do let v ← BR.peek 8; pure (v == syncByte)) s
    split <;> rfl
  · refine Loc.weaken (I := I) (J := I) ?_ (fun s h => h.1) fun s h => h
    exact Loc.ite ((Loc.pure _).mono (Nat.zero_le _)) (BR.loc_peek.bindL (fun _ => (Loc.pure _).mono (Nat.zero_le _)) (Nat.le_refl _))
theorem loc_realignLoop : ∀ n, Loc SrcLens.self 8 (AtBit 0) (AtBit 0) (realignLoop n)
  | 0 => Loc.throw _
  | n + 1 => BR.loc_peek.bindL (fun _ => Loc.ite ((Loc.pure _).mono (Nat.zero_le _))
    (((BR.loc_skip (kept_at 0 8)).weaken (fun _ h => h) fun _ h => BR.at_mod rfl h).bind fun _ => loc_realignLoop n)) (Nat.le_refl _)
theorem loc_realign : Loc SrcLens.self 8 Bytes (AtBit 0) realign := by
  refine loc_of_pos (m' := fun i => if (i % 8 == 0) = false then (do BR.align; realignLoop 188) else realignLoop 188) (fun s => ?_) fun i => ?_
  · unfold realign
    show _ = (if s.isAligned = false then (do BR.align; realignLoop 188) else realignLoop 188 : Go BR Unit) s
    split <;> rfl
  · split <;> rename_i h
    · exact (BR.loc_align.bind fun _ => loc_realignLoop _).weaken (fun s h => h.1) fun s h => h
    · exact (loc_realignLoop _).weaken (fun s hs => ⟨hs.1, by rw [hs.2]; simpa using h⟩) fun s h => h

/-- what `isAligned` found -/
theorem isAligned_true {s s' : BR} (hs : s.Bytes) (h : isAligned s = (.ok true, s')) : s'.AtBit 0 := by
  unfold isAligned at h
  split at h
  · simp at h
  · rename_i hp
    obtain ⟨v, s1, h1, h2⟩ := Go.bind_eq_ok h
    simp only [Go.pure_apply, Prod.mk.injEq] at h2
    obtain ⟨_, rfl⟩ := h2
    unfold BR.peek at h1
    split at h1
    · simp only [Prod.mk.injEq] at h1
      rw [← h1.2]
      exact ⟨hs, by simpa [BR.isAligned] using hp⟩
    · simp at h1

theorem loc_sync : Loc SrcLens.self 0 Bytes (AtBit 0) sync := by
  intro s a s' hi h
  unfold sync at h
  obtain ⟨b, s1, h1, h2⟩ := Go.bind_eq_ok h
  obtain ⟨u, s2, h3, h4⟩ := Go.bind_eq_ok h2
  obtain ⟨hb1, l1⟩ := loc_isAligned s b s1 hi h1
  have hs2 : s2.AtBit 0 ∧ Local SrcLens.self 8 (Go.opt (!b) () realign) s1 u s2 := by
    cases b with
    | true =>
      simp only [Bool.not_true, Go.opt_false, Go.pure_apply, Prod.mk.injEq, Res.ok.injEq, true_and] at h3
      subst h3
      exact ⟨isAligned_true hi h1, (Local.pure _ _).mono (Nat.zero_le _)⟩
    | false => exact loc_realign s1 u s2 hb1 h3
  obtain ⟨h5, h6⟩ := BR.loc_skip (kept_at 0 8) s2 a s' hs2.1 h4
  have hp := BR.skip_pos h4
  refine ⟨BR.at_mod rfl h5, ?_⟩
  unfold sync
  have l3 := hs2.2.bind (f := fun _ => BR.skip 8) h6 (c := 8) (Nat.le_of_eq hp.symm) (by omega)
  refine l1.bind (f := fun ok => do Go.opt (!ok) () realign; BR.skip 8) l3 (c := 8) ?_ (by omega)
  show s1.pos + 8 ≤ s'.pos
  have : s1.pos ≤ s2.pos := hs2.2.pos
  omega

/-! ### packets -/

def St.src : SrcLens St := ⟨St.br, fun s b => { s with br := b }⟩

section
variable {I J : BR → Prop} {α : Type} {p : Nat}

theorem loc_lift {m : Go BR α} (hm : Loc SrcLens.self p I J m) : Loc St.src p I J (St.lift m) := by
  intro s a s' hi h
  unfold St.lift at h
  simp only [Prod.mk.injEq] at h
  obtain ⟨h1, rfl⟩ := h
  obtain ⟨h3, h4⟩ := hm s.br a (m s.br).2 hi (by rw [← h1])
  exact ⟨h3, Local.lift (S := St.src) (s := s) (s' := { s with br := (m s.br).2 }) h4 fun x y hx => by
    show St.lift m { s with br := x } = _
    simp only [St.lift, hx]
    rfl⟩
theorem loc_into {m : Go BR α} {z : α} {set : α → Packet → Packet} (hm : Loc SrcLens.self p I J m) : Loc St.src p I J (readInto m z set) := by
  intro s a s' hi h
  unfold readInto at h
  cases hx : m s.br with
  | mk r b =>
    rw [hx] at h
    cases r with
    | ok v =>
      simp only [Prod.mk.injEq, Res.ok.injEq, true_and] at h
      subst h
      obtain ⟨h3, h4⟩ := hm s.br v b hi hx
      refine ⟨h3, Local.lift (S := St.src) (s := s) (s' := ⟨set v s.pkt, b⟩) h4 fun x y hx => ?_⟩
      show readInto m z set { s with br := x } = _
      simp only [readInto, hx]
      rfl
    | err e => simp at h
    | panic => simp at h
    | hang => simp at h
theorem loc_adaptation : Loc St.src 0 (AtBit 0) Bytes readAdaptation := by
  intro s a s' hi h
  unfold readAdaptation at h
  cases hx : newAdaptationField s.br with
  | mk r b =>
    rw [hx] at h
    cases r with
    | ok v =>
      simp only [Prod.mk.injEq, Res.ok.injEq] at h
      obtain ⟨rfl, rfl⟩ := h
      obtain ⟨h3, h4⟩ := loc_af s.br v b hi hx
      refine ⟨h3, Local.lift (S := St.src) (s := s) (s' := ⟨_, b⟩) h4 fun x y hx => ?_⟩
      show readAdaptation { s with br := x } = _
      simp only [readAdaptation, hx]
      rfl
    | err e => simp at h
    | panic => simp at h
    | hang => simp at h
theorem loc_payload (size : Nat) : Loc St.src 0 Bytes Bytes (readPayload size) := by
  intro s a s' hi h
  unfold readPayload at h
  split at h
  · simp at h
  · rename_i hs
    cases hx : BR.readFull size s.br with
    | mk r b =>
      rw [hx] at h
      cases r with
      | ok v =>
        obtain ⟨bs, e⟩ := v
        cases e with
        | some e => cases e <;> simp at h
        | none =>
          simp only [Prod.mk.injEq, Res.ok.injEq, true_and] at h
          subst h
          obtain ⟨h3, h4⟩ := BR.readFull_loc (kept_bytes _) hi hx
          refine ⟨h3, Local.lift (S := St.src) (s := s) (s' := ⟨_, b⟩) h4 fun x y hx => ?_⟩
          show readPayload size { s with br := x } = _
          simp only [readPayload, if_neg hs, hx]
          rfl
      | err e => simp at h
      | panic => simp at h
      | hang => simp at h
theorem loc_modify {f : Packet → Packet} : Loc St.src 0 I I (Go.modify fun s => ⟨f s.pkt, s.br⟩) := by
  intro s a s' hi h
  simp only [Go.modify_apply, Prod.mk.injEq, Res.ok.injEq, true_and] at h
  subst h
  exact ⟨hi, 0, by omega, by simp [BR.adv, St.src], fun b _ _ => by simp [BR.adv, St.src]⟩
end

theorem loc_next : Loc St.src 0 Bytes Bytes Packet.next := by
  unfold Packet.next
  exact (loc_lift loc_sync).bind fun _ => (loc_into (BR.loc_read1 (kept_at 0 1))).bind fun _ => (loc_into (BR.loc_read1 (kept_at 1 1))).bind fun _ =>
    (loc_into (BR.loc_read1 (kept_at 2 1))).bind fun _ => (loc_into (BR.loc_read (kept_at 3 13))).bind fun _ =>
    (loc_into (BR.loc_read (kept_at 16 2))).bind fun _ => (loc_lift (BR.loc_read (kept_at 18 2))).bind fun afc =>
    (loc_modify (I := AtBit 20) (f := fun p => { p with adaptationFieldControl := afc })).bind fun _ =>
    ((loc_into (BR.loc_read (kept_at 20 4))).weaken (fun _ h => h) (J' := AtBit 0) fun _ h => BR.at_mod rfl h).bind fun _ =>
    (Loc.opt' (J := Bytes) (loc_adaptation.bind fun _ => Loc.pure _) fun _ h => BR.at_bytes h).bind fun _ => Loc.opt (loc_payload _)

end Mpeg.TS
