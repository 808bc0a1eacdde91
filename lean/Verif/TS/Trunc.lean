/-
Truncated packets.
-/
import Verif.TS.Inv2
set_option linter.all false
namespace Mpeg.TS
open Spec

/-- a plain reader with a whole number of bytes left -/
def Whole (s : BR) : Prop := s.Plain ∧ 8 ∣ s.bits.length

theorem Whole.took {s s' : BR} {l : List Bool} (h : Whole s) (t : BR.Took s l s') (hl : 8 ∣ l.length) :
    Whole s' := by
  refine ⟨t.plain h.1, ?_⟩
  have := h.2
  rw [t.bits, List.length_append] at this
  omega

theorem ContAt.map {σ α β : Type} {ext : σ → List Bool → σ} {m : Go σ α} {f : α → β} {s : σ} {t : List Bool}
    (hm : ContAt ext m s t) : ContAt ext (f <$> m) s t := by
  rw [map_eq_pure_bind]; exact ContAt.bind hm (fun _ _ _ => ContAt.pure _ _ _)

theorem cont_readFullUE {s : BR} {t : List Bool} (h : s.Plain) (n : Nat) :
    ContAt BR.ext (readFullUE n) s t := by
  unfold ContAt readFullUE
  by_cases hk : 8 * n ≤ s.bits.length
  · simp only [Go.bind_apply, BR.readFull_ok hk, Go.pure_apply]
    rw [BR.readFull_ok (by simp [BR.ext]; omega), BR.adv_ext hk]
    simp [BR.ext, bytesOfBits_ext n s.bits t hk]
  · simp only [Go.bind_apply, BR.readFull_short (show s.bits.length < 8 * n by omega)]
    have := BR.failErr_end h
    rcases this with h | h <;> rw [h] <;> simp [IsEnd]

theorem cont_tpd {s : BR} {t : List Bool} (h : s.Plain) : ContAt BR.ext newTransportPrivateData s t := by
  unfold newTransportPrivateData
  refine ContAt.bind (BR.cont_read h 8) fun a s' h' => ?_
  obtain ⟨l, t1, _, _⟩ := BR.read_inv h'
  refine ContAt.bind (ContAt.opt fun _ => cont_readFullUE (t1.plain h) _) fun _ _ _ => ContAt.pure _ _ _

theorem cont_pcr {s : BR} {t : List Bool} (h : s.Plain) : ContAt BR.ext readPcr s t := by
  unfold readPcr
  refine ContAt.bind (BR.cont_read h _) fun a s' h' => ?_
  obtain ⟨l, t1, _, _⟩ := BR.read_inv h'
  refine ContAt.bind (BR.cont_read (t1.plain h) _) fun a s' h' => ?_
  obtain ⟨l, t2, _, _⟩ := BR.read_inv h'
  exact ContAt.bind (BR.cont_read (t2.plain (t1.plain h)) _) fun a s' h' => ContAt.pure _ _ _

theorem cont_ignoreSkip {s : BR} {t : List Bool} (n : Nat) (hn : n ≤ s.bits.length) :
    ContAt BR.ext (Go.ignoreErr (BR.skip n)) s t := by
  unfold ContAt Go.ignoreErr
  rw [BR.skip_ok hn, BR.skip_ok (s := s.ext t) (by simp [BR.ext]; omega), BR.adv_ext hn]

/-- `Skip(n)` with its error dropped, followed by a read: the read reports the end. -/
theorem cont_skipRead {β : Type} {s : BR} {t : List Bool} (h : s.Plain) (n k : Nat) (hk : 0 < k)
    {f : Nat → Go BR β} (hf : ∀ a s', s'.Plain → ContAt BR.ext (f a) s' t) :
    ContAt BR.ext (do Go.ignoreErr (BR.skip n); let a ← BR.read k; f a) s t := by
  by_cases hn : n ≤ s.bits.length
  · refine ContAt.bind (cont_ignoreSkip n hn) fun _ s' h' => ?_
    have : s' = s.adv n := by
      simp [Go.ignoreErr, BR.skip_ok hn] at h'; exact h'.symm
    subst this
    refine ContAt.bind (BR.cont_read (BR.plain_adv h n) k) fun a s' h' => hf a s' ?_
    obtain ⟨l, t1, _, _⟩ := BR.read_inv h'
    exact t1.plain h
  · unfold ContAt
    have e1 : Go.ignoreErr (BR.skip n) s = (.ok (), s.failTo) := by
      simp [Go.ignoreErr, BR.skip_short (show s.bits.length < n by omega)]
    have e2 : s.failTo.bits = [] := by unfold BR.failTo; rw [h.2]
    simp only [Go.bind_apply, e1, BR.read_nil k hk _ e2]
    exact Or.inl (by rw [(BR.plain_failTo h).1]; exact Or.inl rfl)

theorem cont_extFlags {s : BR} {t : List Bool} (h : Whole s) (c : Bool) :
    ContAt BR.ext (extFlags c) s t := by
  unfold extFlags
  refine ContAt.opt fun _ => ?_
  obtain ⟨h, hw⟩ := h
  refine ContAt.bind (BR.cont_read1 h) fun a s1 h1 => ?_
  have t1 := BR.read1_inv h1
  refine ContAt.bind (BR.cont_read1 (t1.plain h)) fun b s2 h2 => ?_
  have t2 := t1.trans (BR.read1_inv h2)
  refine ContAt.bind (BR.cont_read1 (t2.plain h)) fun c s3 h3 => ?_
  have t3 := t2.trans (BR.read1_inv h3)
  refine ContAt.bind (cont_ignoreSkip 5 ?_) fun _ _ _ => ContAt.pure _ _ _
  have := t3.bits
  rw [this] at hw
  simp at hw
  omega

theorem extFlags_inv {c : Bool} {v : Bool × Bool × Bool} {s s' : BR} (hw : Whole s)
    (h : extFlags c s = (.ok v, s')) : Whole s' := by
  unfold extFlags at h
  rcases opt_inv h with ⟨_, h⟩ | ⟨_, _, rfl⟩
  · obtain ⟨_, s1, h1, h⟩ := Go.bind_eq_ok h
    obtain ⟨_, s2, h2, h⟩ := Go.bind_eq_ok h
    obtain ⟨_, s3, h3, h⟩ := Go.bind_eq_ok h
    obtain ⟨_, s4, h4, h⟩ := Go.bind_eq_ok h
    have t3 := (((BR.read1_inv h1).trans (BR.read1_inv h2)).trans (BR.read1_inv h3))
    have h5 : 5 ≤ s3.bits.length := by
      have := hw.2; rw [t3.bits] at this; simp at this; omega
    simp only [Go.ignoreErr, BR.skip_ok h5, Prod.mk.injEq] at h4
    simp at h
    rw [← h.2, ← h4.2]
    exact hw.took (t3.trans (BR.took_adv h5)) (by simp [h5])
  · exact hw

theorem cont_ext {s : BR} {t : List Bool} (h : Whole s) : ContAt BR.ext newAdaptationExt s t := by
  unfold newAdaptationExt
  refine ContAt.bind (BR.cont_read h.1 8) fun len s1 h1 => ?_
  obtain ⟨l1, t1, e1, _⟩ := BR.read_inv h1
  have w1 := h.took t1 (by omega)
  refine ContAt.bind (cont_extFlags w1 _) fun v s2 h2 => ?_
  have w2 := extFlags_inv w1 h2
  refine ContAt.bind (ContAt.opt fun _ => ?_) fun v s3 h3 => ?_
  · refine ContAt.bind (BR.cont_read1 w2.1) fun _ s' h' => ?_
    have t' := BR.read1_inv h'
    refine ContAt.bind (BR.cont_read (t'.plain w2.1) _) fun _ s' h' => ContAt.pure _ _ _
  have p3 : s3.Plain := by
    rcases opt_inv h3 with ⟨_, h⟩ | ⟨_, _, rfl⟩
    · obtain ⟨_, s', h', h⟩ := Go.bind_eq_ok h
      obtain ⟨_, s'', h'', h⟩ := Go.bind_eq_ok h
      obtain ⟨_, t', _⟩ := BR.read_inv h''
      simp at h
      rw [← h.2]
      exact t'.plain ((BR.read1_inv h').plain w2.1)
    · exact w2.1
  refine ContAt.bind (ContAt.opt fun _ => ?_) fun v s4 h4 => ?_
  · have := cont_skipRead p3 2 22 (by omega) (t := t) (f := fun a => (pure a : Go BR Nat)) (fun _ _ _ => ContAt.pure _ _ _)
    simpa using this
  have p4 : s4.Plain := by
    rcases opt_inv h4 with ⟨_, h⟩ | ⟨_, _, rfl⟩
    · obtain ⟨_, s', h', h⟩ := Go.bind_eq_ok h
      obtain ⟨_, t', _⟩ := BR.read_inv h
      refine t'.plain ?_
      by_cases hn : 2 ≤ s3.bits.length
      · simp [Go.ignoreErr, BR.skip_ok hn] at h'; rw [← h']; exact BR.plain_adv p3 _
      · simp [Go.ignoreErr, BR.skip_short (show s3.bits.length < 2 by omega)] at h'
        rw [← h']; exact BR.plain_failTo p3
    · exact p3
  refine ContAt.bind (ContAt.opt fun _ => ?_) fun v s5 h5 => ContAt.pure _ _ _
  refine ContAt.bind (BR.cont_read p4 _) fun _ s' h' => ?_
  obtain ⟨_, t5, _⟩ := BR.read_inv h'
  refine ContAt.bind (BR.cont_read (t5.plain p4) _) fun _ s'' h'' => ?_
  obtain ⟨_, t6, _⟩ := BR.read_inv h''
  refine cont_skipRead (t6.plain (t5.plain p4)) 1 15 (by omega) fun a s' hp => ?_
  refine cont_skipRead hp 1 15 (by omega) fun a s' hp => ContAt.pure _ _ _

theorem keeps_ext : KeepsPlain newAdaptationExt := by
  unfold newAdaptationExt extFlags extLTW extPiecewise extSplice
  repeat' first
    | apply KeepsPlain.pure
    | apply KeepsPlain.read
    | apply KeepsPlain.read1
    | apply KeepsPlain.ignoreErr
    | apply KeepsPlain.skip
    | apply KeepsPlain.opt
    | refine KeepsPlain.bind ?_ ?_
    | intro _

theorem cont_af {s : BR} {t : List Bool} (h : Whole s) : ContAt BR.ext newAdaptationField s t := by
  unfold newAdaptationField
  refine ContAt.bind (BR.cont_read h.1 8) fun len s1 h1 => ?_
  obtain ⟨l1, t1, e1, _⟩ := BR.read_inv h1
  have w1 := h.took t1 (by omega)
  refine ContAt.bind ?_ fun f s2 h2 => ?_
  · unfold afFlags
    refine ContAt.opt fun _ => ?_
    refine ContAt.bind (BR.cont_read1 w1.1) fun _ s h => ?_
    have p := (BR.read1_inv h).plain w1.1
    refine ContAt.bind (BR.cont_read1 p) fun _ s h => ?_
    have p := (BR.read1_inv h).plain p
    refine ContAt.bind (BR.cont_read1 p) fun _ s h => ?_
    have p := (BR.read1_inv h).plain p
    refine ContAt.bind (BR.cont_read1 p) fun _ s h => ?_
    have p := (BR.read1_inv h).plain p
    refine ContAt.bind (BR.cont_read1 p) fun _ s h => ?_
    have p := (BR.read1_inv h).plain p
    refine ContAt.bind (BR.cont_read1 p) fun _ s h => ?_
    have p := (BR.read1_inv h).plain p
    refine ContAt.bind (BR.cont_read1 p) fun _ s h => ?_
    have p := (BR.read1_inv h).plain p
    exact ContAt.bind (BR.cont_read1 p) fun _ s h => ContAt.pure _ _ _
  obtain ⟨l2, t2, e2, _⟩ := afFlags_inv h2
  have w2 := w1.took t2 (by rw [e2]; exact dvd_ite _ _ (by decide))
  refine ContAt.bind (ContAt.opt fun _ => cont_pcr w2.1) fun f s3 h3 => ?_
  obtain ⟨l3, t3, e3⟩ := optPcr_inv h3
  have w3 := w2.took t3 (by rw [e3]; exact dvd_ite _ _ (by decide))
  refine ContAt.bind (ContAt.opt fun _ => cont_pcr w3.1) fun f s4 h4 => ?_
  obtain ⟨l4, t4, e4⟩ := optPcr_inv h4
  have w4 := w3.took t4 (by rw [e4]; exact dvd_ite _ _ (by decide))
  refine ContAt.bind (ContAt.opt fun _ => BR.cont_read w4.1 _) fun f s5 h5 => ?_
  obtain ⟨l5, t5, e5⟩ := optRead_inv h5
  have w5 := w4.took t5 (by rw [e5]; exact dvd_ite _ _ (by decide))
  refine ContAt.bind (ContAt.opt fun _ => ContAt.map (cont_tpd w5.1)) fun f s6 h6 => ?_
  have w6 : Whole s6 := by
    rcases opt_inv h6 with ⟨_, h⟩ | ⟨_, _, rfl⟩
    · obtain ⟨⟨v, n⟩, h', _⟩ := map_inv h
      obtain ⟨l, t', e, _⟩ := newTransportPrivateData_inv h'
      exact w5.took t' (by omega)
    · exact w5
  refine ContAt.bind (ContAt.opt fun _ => ContAt.map (cont_ext w6)) fun f s7 h7 => ?_
  have p7 : s7.Plain := by
    rcases opt_inv h7 with ⟨_, h⟩ | ⟨_, _, rfl⟩
    · obtain ⟨⟨v, n⟩, h', _⟩ := map_inv h
      exact keeps_ext.ok w6.1 h'
    · exact w6.1
  exact ContAt.bind (ContAt.opt fun _ => cont_readFullUE p7 _) fun _ _ _ => ContAt.pure _ _ _

/-! ### the whole packet -/

def St.ext (s : St) (t : List Bool) : St := { s with br := s.br.ext t }

theorem cont_lift {α : Type} {m : Go BR α} {s : St} {t : List Bool} (h : ContAt BR.ext m s.br t) :
    ContAt St.ext (St.lift m) s t := by
  unfold ContAt at h ⊢
  unfold St.lift
  cases hm : m s.br with
  | mk r b =>
    rw [hm] at h
    cases r with
    | ok a => simp only at h ⊢; simp [St.ext, h]
    | err e =>
      simp only at h ⊢
      rcases h with h | h
      · exact Or.inl h
      · exact Or.inr (by simp [St.ext, h])
    | panic => simp only at h ⊢; simp [St.ext, h]
    | hang => simp only at h ⊢; simp [St.ext, h]

theorem cont_readInto {α : Type} {m : Go BR α} {z : α} {set : α → Packet → Packet} {s : St} {t : List Bool}
    (h : ContAt BR.ext m s.br t) : ContAt St.ext (readInto m z set) s t := by
  unfold ContAt at h ⊢
  unfold readInto
  cases hm : m s.br with
  | mk r b =>
    rw [hm] at h
    cases r with
    | ok a => simp only at h ⊢; simp [St.ext, h]
    | err e =>
      simp only at h ⊢
      rcases h with h | h
      · exact Or.inl h
      · exact Or.inr (by simp [St.ext, h])
    | panic => simp only at h ⊢; simp [St.ext, h]
    | hang => simp only at h ⊢; simp [St.ext, h]

theorem cont_readAdaptation {s : St} {t : List Bool} (h : Whole s.br) :
    ContAt St.ext readAdaptation s t := by
  have h := cont_af h (t := t)
  unfold ContAt at h ⊢
  unfold readAdaptation
  cases hm : newAdaptationField s.br with
  | mk r b =>
    rw [hm] at h
    rcases r with ⟨a, l⟩ | e | _ | _
    · simp only at h ⊢; simp [St.ext, h]
    · simp only at h ⊢
      rcases h with h | h
      · exact Or.inl h
      · exact Or.inr (by simp [St.ext, h])
    · simp only at h ⊢; simp [St.ext, h]
    · simp only at h ⊢; simp [St.ext, h]

theorem cont_readPayload {s : St} {t : List Bool} (h : s.br.Plain) (n : Nat) :
    ContAt St.ext (readPayload n) s t := by
  unfold ContAt readPayload
  by_cases hn : n > maxPayloadSize
  · simp only [if_pos hn, St.ext]
  · by_cases hk : 8 * n ≤ s.br.bits.length
    · simp only [if_neg hn, BR.readFull_ok hk, St.ext]
      rw [BR.readFull_ok (by simp [BR.ext]; omega), BR.adv_ext hk]
      simp [BR.ext, bytesOfBits_ext n s.br.bits t hk]
    · simp only [if_neg hn, BR.readFull_short (show s.br.bits.length < 8 * n by omega)]
      rcases BR.failErr_end h with h | h <;> rw [h] <;> simp [IsEnd]

theorem readInto_read1 {set : Bool → Packet → Packet} {s s' : St} {u : Unit}
    (h : readInto BR.read1 false set s = (.ok u, s')) : ∃ l, BR.Took s.br l s'.br ∧ l.length = 1 := by
  obtain ⟨b, h, _⟩ := readInto_inv h
  exact ⟨[b], BR.read1_inv h, rfl⟩
theorem readInto_read {k : Nat} {set : Nat → Packet → Packet} {s s' : St} {u : Unit}
    (h : readInto (BR.read k) 0 set s = (.ok u, s')) : ∃ l, BR.Took s.br l s'.br ∧ l.length = k := by
  obtain ⟨b, h, _⟩ := readInto_inv h
  obtain ⟨l, t, e, _⟩ := BR.read_inv h
  exact ⟨l, t, e⟩

theorem keeps_readFullUE (n : Nat) : KeepsPlain (readFullUE n) := by
  unfold readFullUE
  refine KeepsPlain.bind (KeepsPlain.readFull n) ?_
  rintro ⟨bs, e⟩
  rcases e with _ | e
  · exact KeepsPlain.pure _
  · cases e <;> exact KeepsPlain.throw _
theorem keeps_tpd : KeepsPlain newTransportPrivateData :=
  KeepsPlain.bind (KeepsPlain.read 8) fun _ =>
    KeepsPlain.bind (KeepsPlain.opt (keeps_readFullUE _)) fun _ => KeepsPlain.pure _
theorem keeps_map {α β : Type} {m : Go BR α} {f : α → β} (h : KeepsPlain m) : KeepsPlain (f <$> m) := by
  rw [map_eq_pure_bind]; exact KeepsPlain.bind h fun _ => KeepsPlain.pure _
theorem keeps_pcr : KeepsPlain readPcr :=
  KeepsPlain.bind (KeepsPlain.read _) fun _ => KeepsPlain.bind (KeepsPlain.read _) fun _ =>
    KeepsPlain.bind (KeepsPlain.read _) fun _ => KeepsPlain.pure _
theorem keeps_afFlags (c : Bool) : KeepsPlain (afFlags c) := by
  unfold afFlags
  repeat' first
    | apply KeepsPlain.pure
    | apply KeepsPlain.read1
    | apply KeepsPlain.opt
    | refine KeepsPlain.bind ?_ ?_
    | intro _

theorem keeps_af : KeepsPlain newAdaptationField := by
  unfold newAdaptationField
  refine KeepsPlain.bind (KeepsPlain.read _) fun _ => ?_
  refine KeepsPlain.bind (keeps_afFlags _) fun _ => ?_
  refine KeepsPlain.bind (KeepsPlain.opt keeps_pcr) fun _ => ?_
  refine KeepsPlain.bind (KeepsPlain.opt keeps_pcr) fun _ => ?_
  refine KeepsPlain.bind (KeepsPlain.opt (KeepsPlain.read _)) fun _ => ?_
  refine KeepsPlain.bind (KeepsPlain.opt (keeps_map keeps_tpd)) fun _ => ?_
  refine KeepsPlain.bind (KeepsPlain.opt (keeps_map keeps_ext)) fun _ => ?_
  exact KeepsPlain.bind (KeepsPlain.opt (keeps_readFullUE _)) fun _ => KeepsPlain.pure _

theorem cont_afterSync {s : St} {t : List Bool} (h : Whole s.br) : ContAt St.ext afterSync s t := by
  unfold afterSync
  obtain ⟨p, hw⟩ := h
  refine ContAt.bind (cont_readInto (BR.cont_read1 p)) fun _ s1 h1 => ?_
  obtain ⟨l1, t1, e1⟩ := readInto_read1 h1
  have p := t1.plain p
  refine ContAt.bind (cont_readInto (BR.cont_read1 p)) fun _ s2 h2 => ?_
  obtain ⟨l2, t2, e2⟩ := readInto_read1 h2
  have p := t2.plain p
  refine ContAt.bind (cont_readInto (BR.cont_read1 p)) fun _ s3 h3 => ?_
  obtain ⟨l3, t3, e3⟩ := readInto_read1 h3
  have p := t3.plain p
  refine ContAt.bind (cont_readInto (BR.cont_read p _)) fun _ s4 h4 => ?_
  obtain ⟨l4, t4, e4⟩ := readInto_read h4
  have p := t4.plain p
  refine ContAt.bind (cont_readInto (BR.cont_read p _)) fun _ s5 h5 => ?_
  obtain ⟨l5, t5, e5⟩ := readInto_read h5
  have p := t5.plain p
  refine ContAt.bind (cont_lift (BR.cont_read p _)) fun afc s6 h6 => ?_
  obtain ⟨k6, _⟩ := lift_inv h6
  obtain ⟨l6, t6, e6, _⟩ := BR.read_inv k6
  have p := t6.plain p
  refine ContAt.bind (by simp [ContAt, St.ext]) fun _ s7 h7 => ?_
  simp only [Go.modify_apply, Prod.mk.injEq] at h7
  have b7 : s7.br = s6.br := by rw [← h7.2]
  rw [← b7] at p t6
  refine ContAt.bind (cont_readInto (BR.cont_read p _)) fun _ s8 h8 => ?_
  obtain ⟨l8, t8, e8⟩ := readInto_read h8
  have T := ((((((t1.trans t2).trans t3).trans t4).trans t5).trans t6).trans t8)
  have w8 : Whole s8.br := Whole.took ⟨by assumption, hw⟩ T (by simp [e1, e2, e3, e4, e5, e6, e8])
  refine ContAt.bind (ContAt.opt fun _ => ?_) fun size s9 h9 => ?_
  · exact ContAt.bind (cont_readAdaptation w8) fun _ _ _ => ContAt.pure _ _ _
  · refine ContAt.opt fun _ => cont_readPayload ?_ _
    rcases opt_inv h9 with ⟨_, h⟩ | ⟨_, _, rfl⟩
    · obtain ⟨len, s10, h9, h10⟩ := Go.bind_eq_ok h
      obtain ⟨af, hn, _⟩ := readAdaptation_inv h9
      simp only [Go.pure_apply, Prod.mk.injEq] at h10
      rw [← h10.2]
      exact keeps_af.ok w8.1 hn
    · exact w8.1

theorem cont_sync {s : BR} {t : List Bool} (h : s.Plain) (h8 : s.pos % 8 = 0)
    (hl : 8 ≤ s.bits.length) (hs : natOfBits (s.bits.take 8) = 0x47) : ContAt BR.ext sync s t := by
  unfold ContAt
  rw [isAligned_sync h8 hs hl]
  simp only
  rw [isAligned_sync (s := s.ext t) h8 (by simp [BR.ext, List.take_append_of_le_length hl, hs])
    (by simp [BR.ext]; omega), BR.adv_ext hl]

end Mpeg.TS
