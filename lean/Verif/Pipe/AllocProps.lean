/-
C121: the buffers that parsing asks for.
-/
import Verif.TS.AllocModel
import Verif.PES.AllocModel
import Verif.PS.Model
import Verif.Video.MovesLemmas
set_option linter.all false
namespace Mpeg
open PS (bitsLeft)

/-! ### forgetting the requests -/

/-- `a` does what `m` does, and records requests. -/
def Erases {σ α : Type} (a : Go (Logged σ) α) (m : Go σ α) : Prop := ∀ s, (a s).1 = (m s.st).1 ∧ (a s).2.st = (m s.st).2

namespace Erases
variable {σ α β : Type}
theorem lift (m : Go σ α) : Erases (Logged.lift m) m := fun _ => ⟨rfl, rfl⟩
theorem pure (x : α) : Erases (Pure.pure x : Go (Logged σ) α) (Pure.pure x) := fun _ => ⟨rfl, rfl⟩
theorem panic : Erases (Go.panic : Go (Logged σ) α) Go.panic := fun _ => ⟨rfl, rfl⟩
theorem bind {a : Go (Logged σ) α} {m : Go σ α} {f : α → Go (Logged σ) β} {g : α → Go σ β} (h : Erases a m)
    (hf : ∀ x, Erases (f x) (g x)) : Erases (a >>= f) (m >>= g) := by
  intro s
  have h1 := h s
  rw [Go.bind_apply, Go.bind_apply]
  cases ha : a s with
  | mk r s' =>
    cases hm : m s.st with
    | mk r' t =>
      rw [ha, hm] at h1
      obtain ⟨h2, h3⟩ := h1
      simp only at h2 h3
      subst h2 h3
      cases r with
      | ok x => exact hf x s'
      | err e => exact ⟨rfl, rfl⟩
      | panic => exact ⟨rfl, rfl⟩
      | hang => exact ⟨rfl, rfl⟩
theorem map {a : Go (Logged σ) α} {m : Go σ α} (f : α → β) (h : Erases a m) : Erases (f <$> a) (f <$> m) := by
  rw [map_eq_pure_bind, map_eq_pure_bind]; exact .bind h fun _ => .pure _
theorem opt {c : Bool} {d : α} {a : Go (Logged σ) α} {m : Go σ α} (h : Erases a m) : Erases (Go.opt c d a) (Go.opt c d m) := by
  cases c
  · exact .pure _
  · exact h
theorem make {n : Nat} {a : Go (Logged σ) α} {m : Go σ α} (h : Erases a m) : Erases (do Logged.make n; a) m :=
  fun s => h ⟨s.st, s.sizes ++ [n]⟩
theorem ite {c : Prop} [Decidable c] {a b : Go (Logged σ) α} {m n : Go σ α} (h : Erases a m) (h' : Erases b n) :
    Erases (if c then a else b) (if c then m else n) := by split <;> assumption
end Erases

namespace TS
theorem erase_tpd : Erases aTransportPrivateData newTransportPrivateData :=
  .bind (.lift _) fun _ => .bind (.opt (.make (.lift _))) fun _ => .pure _
theorem erase_af : Erases aAdaptationField newAdaptationField :=
  .bind (.lift _) fun _ => .bind (.lift _) fun _ => .bind (.lift _) fun _ => .bind (.lift _) fun _ => .bind (.lift _) fun _ =>
    .bind (.opt (.map _ erase_tpd)) fun _ => .bind (.lift _) fun _ => .bind (.opt (.make (.lift _))) fun _ => .pure _
theorem erase_readAdaptation : Erases aReadAdaptation readAdaptation := by
  intro s
  have h := erase_af ⟨s.st.br, s.sizes⟩
  unfold aReadAdaptation readAdaptation
  cases ha : aAdaptationField ⟨s.st.br, s.sizes⟩ with
  | mk r b =>
    cases hm : newAdaptationField s.st.br with
    | mk r' b' =>
      rw [ha] at h
      simp only [hm] at h
      obtain ⟨h1, h2⟩ := h
      subst h1 h2
      cases r with
      | ok x => exact ⟨rfl, rfl⟩
      | err e => exact ⟨rfl, rfl⟩
      | panic => exact ⟨rfl, rfl⟩
      | hang => exact ⟨rfl, rfl⟩

/-- The model with requests is the model without them, and the requests. -/
theorem C121_same : Erases Packet.aNext Packet.next :=
  .bind (.lift _) fun _ => .bind (.lift _) fun _ => .bind (.lift _) fun _ => .bind (.lift _) fun _ => .bind (.lift _) fun _ =>
    .bind (.lift _) fun _ => .bind (.lift _) fun _ => .bind (.lift _) fun _ => .bind (.lift _) fun _ =>
    .bind (.opt (.bind erase_readAdaptation fun _ => .pure _)) fun _ => .lift _
end TS

namespace PES
theorem erase_ext : Erases aReadExtension readExtension :=
  .bind (.lift _) fun _ => .bind (.lift _) fun _ => .bind (.lift _) fun _ => .bind (.lift _) fun _ => .bind (.lift _) fun _ =>
    .bind (.lift _) fun _ => .bind (.opt (.make (.lift _))) fun _ => .bind (.opt .panic) fun _ => .bind (.opt .panic) fun _ =>
    .bind (.lift _) fun _ => .bind (.opt .panic) fun _ => .pure _
theorem erase_header : Erases aReadHeader readHeader :=
  .bind (.lift _) fun _ => .bind (.lift _) fun _ => .bind (.lift _) fun _ => .bind (.opt .panic) fun _ =>
    .bind (.opt (.map _ erase_ext)) fun _ => .bind (.lift _) fun _ => .pure _
theorem erase_headerInto : Erases aHeaderInto headerInto := by
  intro s
  have h := erase_header ⟨s.st.br, s.sizes⟩
  unfold aHeaderInto headerInto
  cases ha : aReadHeader ⟨s.st.br, s.sizes⟩ with
  | mk r b =>
    cases hm : readHeader s.st.br with
    | mk r' b' =>
      rw [ha] at h
      simp only [hm] at h
      obtain ⟨h1, h2⟩ := h
      subst h1 h2
      cases r with
      | ok x => exact ⟨rfl, rfl⟩
      | err e => exact ⟨rfl, rfl⟩
      | panic => exact ⟨rfl, rfl⟩
      | hang => exact ⟨rfl, rfl⟩
theorem erase_body (id len : Nat) : Erases (Packet.aBody id len) (Packet.body id len) :=
  .ite (.bind erase_headerInto fun _ => .ite (.make (.lift _)) (.lift _)) (.ite (.make (.bind (.lift _) fun _ => .pure _)) (.pure _))

/-- The model with requests is the model without them, and the requests. -/
theorem C121_same : Erases Packet.aNext Packet.next :=
  .bind (.lift _) fun _ => .bind (.lift _) fun _ => .bind (.lift _) fun _ => erase_body _ _
end PES

/-! ### the requests -/

theorem moves_left {a b : BR} (h : BR.Moves a b) : bitsLeft b ≤ bitsLeft a := by
  induction h with
  | refl => exact Nat.le_refl _
  | @adv b k _ ih =>
    refine Nat.le_trans ?_ ih
    simp only [bitsLeft, BR.adv, List.length_drop]; omega
  | @fail b _ ih =>
    refine Nat.le_trans ?_ ih
    unfold BR.failTo
    cases hl : b.later with
    | nil => simp [bitsLeft, hl]
    | cons x l => simp [bitsLeft, hl]

/-- What `a` asks for has property `P`; it only moves over the input; if it succeeds the result has property `Q`, and the
source had as many bytes as were asked for. -/
def Asks {σ α : Type} (gt : σ → BR) (P : Nat → Prop) (Q : α → Prop) (a : Go (Logged σ) α) : Prop :=
  ∀ s, ∃ l, (a s).2.sizes = s.sizes ++ l ∧ (∀ n ∈ l, P n) ∧ BR.Moves (gt s.st) (gt (a s).2.st) ∧
    ∀ v, (a s).1 = .ok v → Q v ∧ ∀ n ∈ l, 8 * n ≤ bitsLeft (gt s.st)

/-- What a result of `m` satisfies. -/
def Gives {σ α : Type} (Q : α → Prop) (m : Go σ α) : Prop := ∀ s v, (m s).1 = .ok v → Q v

namespace Asks
variable {σ α β : Type} {gt : σ → BR} {P : Nat → Prop}
theorem lift {Q : α → Prop} {m : Go σ α} (hm : Go.Mv gt m) (hg : Gives Q m) : Asks gt P Q (Logged.lift m) := fun s =>
  ⟨[], by simp [Logged.lift], by simp, hm s.st, fun v hv => ⟨hg s.st v hv, by simp⟩⟩
theorem pure {Q : α → Prop} {x : α} (h : Q x) : Asks gt P Q (Pure.pure x : Go (Logged σ) α) := fun s =>
  ⟨[], by simp, by simp, .refl, fun v hv => by cases hv; exact ⟨h, by simp⟩⟩
theorem panic {Q : α → Prop} : Asks gt P Q (Go.panic : Go (Logged σ) α) := fun s =>
  ⟨[], by simp, by simp, .refl, fun v hv => by cases hv⟩
theorem bind {Q : α → Prop} {R : β → Prop} {a : Go (Logged σ) α} {f : α → Go (Logged σ) β} (h : Asks gt P Q a)
    (hf : ∀ x, Q x → Asks gt P R (f x)) : Asks gt P R (a >>= f) := by
  intro s
  obtain ⟨l, h1, h2, h3, h4⟩ := h s
  rw [Go.bind_apply]
  cases ha : a s with
  | mk r s' =>
    rw [ha] at h1 h3 h4
    cases r with
    | ok x =>
      obtain ⟨hq, h5⟩ := h4 x rfl
      obtain ⟨l', g1, g2, g3, g4⟩ := hf x hq s'
      refine ⟨l ++ l', ?_, ?_, h3.trans g3, ?_⟩
      · have h1 : s'.sizes = s.sizes ++ l := h1
        rw [g1, h1, List.append_assoc]
      · intro n hn
        rcases List.mem_append.mp hn with hn | hn
        · exact h2 n hn
        · exact g2 n hn
      · intro v hv
        obtain ⟨hr, h6⟩ := g4 v hv
        refine ⟨hr, ?_⟩
        intro n hn
        rcases List.mem_append.mp hn with hn | hn
        · exact h5 n hn
        · exact Nat.le_trans (h6 n hn) (moves_left h3)
    | err e => exact ⟨l, h1, h2, h3, fun v hv => by cases hv⟩
    | panic => exact ⟨l, h1, h2, h3, fun v hv => by cases hv⟩
    | hang => exact ⟨l, h1, h2, h3, fun v hv => by cases hv⟩
theorem mono {Q R : α → Prop} {a : Go (Logged σ) α} (h : Asks gt P Q a) (hq : ∀ x, Q x → R x) : Asks gt P R a := by
  intro s
  obtain ⟨l, h1, h2, h3, h4⟩ := h s
  exact ⟨l, h1, h2, h3, fun v hv => ⟨hq v (h4 v hv).1, (h4 v hv).2⟩⟩
theorem opt {Q : α → Prop} {c : Bool} {d : α} {a : Go (Logged σ) α} (hd : c = false → Q d) (h : c = true → Asks gt P Q a) :
    Asks gt P Q (Go.opt c d a) := by
  cases c
  · exact .pure (hd rfl)
  · exact h rfl
/-- a buffer that is asked for and then filled -/
theorem make {Q : α → Prop} {n : Nat} {m : Go σ α} (hn : P n) (hm : Go.Mv gt m)
    (hg : ∀ s v, (m s).1 = .ok v → Q v ∧ 8 * n ≤ bitsLeft (gt s)) :
    Asks gt P Q (do Logged.make n; Logged.lift m) := by
  intro s
  refine ⟨[n], rfl, by simpa using hn, hm s.st, ?_⟩
  intro v hv
  obtain ⟨h1, h2⟩ := hg s.st v hv
  exact ⟨h1, by simpa using h2⟩
end Asks

theorem gives_true {σ α : Type} (m : Go σ α) : Gives (fun _ => True) m := fun _ _ _ => trivial
theorem gives_read (k : Nat) : Gives (· < 2 ^ k) (BR.read k) := by
  intro s v hv
  cases hx : BR.read k s with
  | mk r s' =>
    rw [hx] at hv
    have hv : r = .ok v := hv
    subst hv
    obtain ⟨l, _, hl, rfl⟩ := BR.read_inv hx
    rw [← hl]
    exact natOfBits_lt l
theorem gives_bind {σ α β : Type} {Q : α → Prop} {R : β → Prop} {m : Go σ α} {f : α → Go σ β} (h : Gives Q m)
    (hf : ∀ x, Q x → Gives R (f x)) : Gives R (m >>= f) := by
  intro s v hv
  rw [Go.bind_apply] at hv
  cases hx : m s with
  | mk r s' =>
    rw [hx] at hv
    cases r with
    | ok x => exact hf x (h s x (by rw [hx])) s' v hv
    | err e => cases hv
    | panic => cases hv
    | hang => cases hv
theorem gives_pure {σ α : Type} {Q : α → Prop} {x : α} (h : Q x) : Gives Q (Pure.pure x : Go σ α) := by
  intro s v hv; cases hv; exact h

namespace BR
theorem mv_readFull (n : Nat) : BR.Mv (readFull n) := fun s => by
  unfold readFull; split
  · exact .adv _ .refl
  · exact .fail .refl
theorem mv_readAll : BR.Mv readAll := fun s => .fail .refl
end BR

namespace TS
open BR Video

theorem mv_readFullUE (n : Nat) : BR.Mv (readFullUE n) := by
  refine .bind (mv_readFull n) fun r => ?_
  split
  · exact .pure _
  · exact .throw _
  · exact .throw _

/-- A buffer that could be filled was not longer than the input. -/
theorem readFull_left {n : Nat} {s s' : BR} {bs : List UInt8} (h : readFull n s = (.ok (bs, none), s')) : 8 * n ≤ bitsLeft s := by
  unfold readFull at h
  split at h
  · rename_i hn; unfold bitsLeft; omega
  · cases h

theorem readFullUE_left (n : Nat) (s : BR) (v : List UInt8) (hv : (readFullUE n s).1 = .ok v) : True ∧ 8 * n ≤ bitsLeft s := by
  refine ⟨trivial, ?_⟩
  unfold readFullUE at hv
  rw [Go.bind_apply] at hv
  cases hx : readFull n s with
  | mk r s' =>
    rw [hx] at hv
    cases r with
    | ok x =>
      obtain ⟨bs, e⟩ := x
      cases e with
      | none => exact readFull_left hx
      | some e => cases e <;> cases hv
    | err e => cases hv
    | panic => cases hv
    | hang => cases hv

theorem mv_readPcr : BR.Mv readPcr := by unfold readPcr; mv_steps
theorem mv_afFlags (c : Bool) : BR.Mv (afFlags c) := by unfold afFlags; mv_steps
theorem mv_newAdaptationExt : BR.Mv newAdaptationExt := by
  unfold newAdaptationExt extFlags extLTW extPiecewise extSplice
  mv_steps
theorem mv_realignLoop : ∀ n, BR.Mv (realignLoop n)
  | 0 => .throw _
  | n + 1 => .bind (mv_peek _) fun _ => .ite (.pure _) (.bind (mv_skip _) fun _ => mv_realignLoop n)
theorem mv_sync : BR.Mv sync := by
  refine .bind ?_ fun a => .bind (.opt ?_) fun _ => mv_skip _
  · intro s
    unfold isAligned
    split
    · exact .refl
    · exact (Go.Mv.bind (mv_peek 8) fun _ => .pure _ : BR.Mv _) s
  · intro s
    unfold realign
    split
    · exact (Go.Mv.bind mv_align fun _ => mv_realignLoop 188 : BR.Mv _) s
    · exact mv_realignLoop 188 s
theorem mv_stlift {α : Type} {m : Go BR α} (h : BR.Mv m) : Go.Mv St.br (St.lift m) := fun s => h s.br
theorem mv_readInto {α : Type} {m : Go BR α} {z : α} {set : α → Packet → Packet} (h : BR.Mv m) : Go.Mv St.br (readInto m z set) := by
  intro s
  have := h s.br
  unfold readInto
  cases hx : m s.br with
  | mk r b => rw [hx] at this; cases r <;> exact this
theorem mv_readPayload (n : Nat) : Go.Mv St.br (readPayload n) := by
  intro s
  unfold readPayload
  split
  · exact .refl
  · have := mv_readFull n s.br
    cases hx : readFull n s.br with
    | mk r b =>
      rw [hx] at this
      cases r with
      | ok x =>
        obtain ⟨bs, e⟩ := x
        cases e with
        | none => exact this
        | some e => cases e <;> exact this
      | err e => exact this
      | panic => exact this
      | hang => exact this

/-- At most 255 bytes, or almost 4 GiB: nothing in between. -/
def Size (n : Nat) : Prop := n ≤ 255 ∨ (2 ^ 32 - 512 ≤ n ∧ n < 2 ^ 32)

theorem asks_tpd : Asks (fun s : BR => s) Size (fun v => v.2 < 256) aTransportPrivateData := by
  unfold aTransportPrivateData
  refine .bind (.lift (mv_read 8) (gives_read 8)) fun len hlen => ?_
  refine .bind (Q := fun _ => True) (.opt (fun _ => trivial) fun _ => .make ?_ (mv_readFullUE _) (readFullUE_left _)) fun _ _ => .pure hlen
  left
  have : len < 2 ^ 8 := hlen
  omega

/-- the length of a part is a byte -/
def PartOK {α : Type} : Option (α × Nat) → Prop
  | none => True
  | some v => v.2 < 256

theorem gives_ext : Gives (fun v => v.2 < 256) newAdaptationExt := by
  unfold newAdaptationExt
  refine gives_bind (gives_read 8) fun len hlen => ?_
  exact gives_bind (gives_true _) fun _ _ => gives_bind (gives_true _) fun _ _ => gives_bind (gives_true _) fun _ _ =>
    gives_bind (gives_true _) fun _ _ => gives_pure hlen

theorem afterPart_small {α : Type} {x : Option (α × Nat)} {r : Nat} (hx : PartOK x) (hr : r ≤ 255) :
    afterPart r x ≤ 255 ∨ (2 ^ 32 - 256 ≤ afterPart r x ∧ afterPart r x < 2 ^ 32) := by
  cases x with
  | none => exact .inl hr
  | some v =>
    have hv : v.2 < 256 := hx
    simp only [afterPart, sub32]
    omega

theorem afterPart_size {α : Type} {x : Option (α × Nat)} {r : Nat} (hx : PartOK x)
    (hr : r ≤ 255 ∨ (2 ^ 32 - 256 ≤ r ∧ r < 2 ^ 32)) : Size (afterPart r x) := by
  cases x with
  | none => rcases hr with hr | hr
            · exact .inl hr
            · right; simp only [afterPart]; omega
  | some v =>
    have hv : v.2 < 256 := hx
    unfold Size
    simp only [afterPart, sub32]
    omega

theorem asks_af : Asks (fun s : BR => s) Size (fun _ => True) aAdaptationField := by
  unfold aAdaptationField
  refine .bind (.lift (mv_read 8) (gives_read 8)) fun len hlen => ?_
  have hlen : len < 2 ^ 8 := hlen
  refine .bind (.lift (mv_afFlags _) (gives_true _)) fun f _ => ?_
  refine .bind (.lift (.opt mv_readPcr) (gives_true _)) fun pcr _ => ?_
  refine .bind (.lift (.opt mv_readPcr) (gives_true _)) fun opcr _ => ?_
  refine .bind (.lift (.opt (mv_read 8)) (gives_true _)) fun sc _ => ?_
  dsimp only
  generalize hr1 : (if len ≥ 1 then len - 1 else len) = r1
  have h1 : r1 ≤ 255 := by rw [← hr1]; split <;> omega
  generalize hr2 : (if (decide (r1 ≥ 6) && f.pcrFlag) = true then r1 - 6 else r1) = r2
  have h2 : r2 ≤ 255 := by rw [← hr2]; split <;> omega
  generalize hr3 : (if (decide (r2 ≥ 6) && f.opcrFlag) = true then r2 - 6 else r2) = r3
  have h3 : r3 ≤ 255 := by rw [← hr3]; split <;> omega
  generalize hr4 : (if (decide (r3 ≥ 1) && f.splicingPointFlag) = true then r3 - 1 else r3) = r4
  have h4 : r4 ≤ 255 := by rw [← hr4]; split <;> omega
  refine .bind (Q := PartOK) (.opt (fun _ => trivial) fun _ => ?_) fun tpd htpd => ?_
  · rw [map_eq_pure_bind]
    exact .bind asks_tpd fun v hv => .pure hv
  have h5 := afterPart_small htpd h4
  refine .bind (Q := PartOK) (.lift (.opt (.map _ mv_newAdaptationExt)) ?_) fun ext hext => ?_
  · cases (decide (afterPart r4 tpd ≥ 2) && f.adaptationFieldExtensionFlag)
    · exact gives_pure trivial
    · rw [Go.opt_true, map_eq_pure_bind]
      exact gives_bind gives_ext fun v hv => gives_pure hv
  have h6 := afterPart_size hext h5
  exact .bind (Q := fun _ => True) (.opt (fun _ => trivial) fun _ => .make h6 (mv_readFullUE _) (readFullUE_left _)) fun _ _ => .pure trivial

theorem asks_readAdaptation : Asks St.br Size (fun _ => True) aReadAdaptation := by
  intro s
  obtain ⟨l, h1, h2, h3, h4⟩ := asks_af ⟨s.st.br, s.sizes⟩
  unfold aReadAdaptation
  cases hx : aAdaptationField ⟨s.st.br, s.sizes⟩ with
  | mk r b =>
    rw [hx] at h1 h3 h4
    cases r with
    | ok x => exact ⟨l, h1, h2, h3, fun v hv => ⟨trivial, (h4 x rfl).2⟩⟩
    | err e => exact ⟨l, h1, h2, h3, fun v hv => by cases hv⟩
    | panic => exact ⟨l, h1, h2, h3, fun v hv => by cases hv⟩
    | hang => exact ⟨l, h1, h2, h3, fun v hv => by cases hv⟩

theorem asks_next : Asks St.br Size (fun _ => True) Packet.aNext := by
  unfold Packet.aNext
  refine .bind (.lift (mv_stlift mv_sync) (gives_true _)) fun _ _ => ?_
  refine .bind (.lift (mv_readInto mv_read1) (gives_true _)) fun _ _ => ?_
  refine .bind (.lift (mv_readInto mv_read1) (gives_true _)) fun _ _ => ?_
  refine .bind (.lift (mv_readInto mv_read1) (gives_true _)) fun _ _ => ?_
  refine .bind (.lift (mv_readInto (mv_read _)) (gives_true _)) fun _ _ => ?_
  refine .bind (.lift (mv_readInto (mv_read _)) (gives_true _)) fun _ _ => ?_
  refine .bind (.lift (mv_stlift (mv_read _)) (gives_true _)) fun afc _ => ?_
  refine .bind (.lift (.modify fun _ => rfl) (gives_true _)) fun _ _ => ?_
  refine .bind (.lift (mv_readInto (mv_read _)) (gives_true _)) fun _ _ => ?_
  refine .bind (Q := fun _ => True) (.opt (fun _ => trivial) fun _ => .bind asks_readAdaptation fun _ _ => .pure trivial) fun size _ => ?_
  exact .lift (.opt (mv_readPayload _)) (gives_true _)

/-- **C121**, transport packets.  Whatever the input, a buffer that `Next` asks for has at most 255 bytes or almost 4 GiB;
and if `Next` accepts the packet, the input had as many bytes. -/
theorem C121_packet (s : St) :
    (∀ n ∈ (Packet.aNext ⟨s, []⟩).2.sizes, n ≤ 255 ∨ (2 ^ 32 - 512 ≤ n ∧ n < 2 ^ 32)) ∧
    (∀ v, (Packet.next s).1 = .ok v → ∀ n ∈ (Packet.aNext ⟨s, []⟩).2.sizes, 8 * n ≤ bitsLeft s.br) := by
  obtain ⟨l, h1, h2, _, h4⟩ := asks_next ⟨s, []⟩
  have h1 : (Packet.aNext ⟨s, []⟩).2.sizes = l := h1
  rw [h1]
  refine ⟨h2, fun v hv => (h4 v ?_).2⟩
  rw [(C121_same ⟨s, []⟩).1]
  exact hv

/-- So for an input below 4 GiB, accepted packets cost at most 255 bytes for each buffer. -/
theorem C121_packet_accepted (s : St) (hs : bitsLeft s.br < 8 * (2 ^ 32 - 512)) {v : Unit} (hv : (Packet.next s).1 = .ok v) :
    ∀ n ∈ (Packet.aNext ⟨s, []⟩).2.sizes, n ≤ 255 := by
  intro n hn
  have h1 := (C121_packet s).1 n hn
  have h2 := (C121_packet s).2 v hv n hn
  omega

/-- a packet whose private data is announced as longer than the adaptation field -/
def greedy : List UInt8 := [0x47, 0x00, 0x21, 0x20, 3, 0x02, 2, 0xaa, 0xbb] ++ List.replicate 179 0xff

/-- **C121** is false: 188 bytes of input make `Next` ask for a buffer of 4 GiB less one byte. -/
theorem C121_packet_false :
    greedy.length = 188 ∧ (Packet.aNext ⟨⟨Packet.new, BR.ofBytes greedy⟩, []⟩).2.sizes = [2, 2 ^ 32 - 1] ∧
    (Packet.next ⟨Packet.new, BR.ofBytes greedy⟩).1 = .err .unexpectedEOF := by
  decide +kernel

/-- an ordinary packet with private data and stuffing -/
example : (Packet.aNext ⟨⟨Packet.new, BR.ofBytes ([0x47, 0x00, 0x21, 0x30, 9, 0x02, 2, 0xaa, 0xbb] ++ List.replicate 179 0xff)⟩, []⟩).2.sizes = [2, 5] := by
  decide +kernel

end TS

namespace PES
open BR Video
open TS (sub32 readFull_left)

theorem mv_stlift {α : Type} {m : Go BR α} (h : BR.Mv m) : Go.Mv St.br (St.lift m) := fun s => h s.br
theorem mv_readInto {α : Type} {m : Go BR α} {z : α} {set : α → Packet → Packet} (h : BR.Mv m) : Go.Mv St.br (readInto m z set) := by
  intro s
  have := h s.br
  unfold readInto
  cases hx : m s.br with
  | mk r b => rw [hx] at this; cases r <;> exact this
theorem gives_readInto {α : Type} {Q : α → Prop} {m : Go BR α} {z : α} {set : α → Packet → Packet} (h : Gives Q m) :
    Gives Q (readInto m z set) := by
  intro s v hv
  have := h s.br
  unfold readInto at hv
  cases hx : m s.br with
  | mk r b =>
    rw [hx] at this hv
    cases r with
    | ok x => exact this v hv
    | err e => cases hv
    | panic => cases hv
    | hang => cases hv
theorem mv_marker (k v : Nat) : BR.Mv (marker k v) := by
  intro s
  have := mv_read k s
  unfold marker
  cases hx : BR.read k s with
  | mk r b =>
    rw [hx] at this
    cases r with
    | ok x => dsimp only; split <;> exact this
    | err e => exact this
    | panic => exact this
    | hang => exact this
theorem mv_readTimeStamp (m : Nat) : BR.Mv (readTimeStamp m) :=
  .bind (mv_marker _ _) fun _ => .bind (mv_read _) fun _ => .bind (mv_marker _ _) fun _ => .bind (mv_read _) fun _ =>
    .bind (mv_marker _ _) fun _ => .bind (mv_read _) fun _ => .bind (mv_marker _ _) fun _ => .pure _
theorem mv_readStuffing : ∀ n, BR.Mv (readStuffing n)
  | 0 => .pure _
  | n + 1 => .bind (mv_read _) fun _ => .bind .check fun _ => mv_readStuffing n
theorem mv_readExact (n : Nat) : BR.Mv (readExact n) := by
  refine .bind (mv_readFull n) fun r => ?_
  split
  · exact .pure _
  · exact .throw _
theorem mv_readPStd : BR.Mv readPStd :=
  .bind (mv_marker _ _) fun _ => .bind (mv_read _) fun _ => .bind (mv_read _) fun _ => .pure _
theorem mv_readStamps (f : Nat) : BR.Mv (readStamps f) :=
  .ite (.bind (mv_readTimeStamp _) fun _ => .pure _)
    (.ite (.bind (mv_readTimeStamp _) fun _ => .bind (mv_readTimeStamp _) fun _ => .pure _) (.pure _))
theorem mv_readFixed : BR.Mv readFixed := by unfold readFixed; mv_steps
theorem mv_prefix24 : BR.Mv prefix24 := .bind (mv_peek _) fun _ => .bind .check fun _ => .ignoreErr (mv_skip _)

theorem readExact_left (n : Nat) (s : BR) (v : List UInt8) (hv : (readExact n s).1 = .ok v) : True ∧ 8 * n ≤ bitsLeft s := by
  refine ⟨trivial, ?_⟩
  unfold readExact at hv
  rw [Go.bind_apply] at hv
  cases hx : readFull n s with
  | mk r s' =>
    rw [hx] at hv
    cases r with
    | ok x =>
      obtain ⟨bs, e⟩ := x
      cases e with
      | none => exact readFull_left hx
      | some e => cases e <;> cases hv
    | err e => cases hv
    | panic => cases hv
    | hang => cases hv

theorem mv_boundedPayload (n : Nat) : Go.Mv St.br (boundedPayload n) := by
  intro s
  have := mv_readFull n s.br
  unfold boundedPayload
  cases hx : readFull n s.br with
  | mk r b =>
    rw [hx] at this
    cases r with
    | ok x =>
      obtain ⟨bs, e⟩ := x
      cases e <;> exact this
    | err e => exact this
    | panic => exact this
    | hang => exact this
theorem boundedPayload_left (n : Nat) (s : St) (v : Unit) (hv : (boundedPayload n s).1 = .ok v) : True ∧ 8 * n ≤ bitsLeft s.br := by
  refine ⟨trivial, ?_⟩
  unfold boundedPayload at hv
  cases hx : readFull n s.br with
  | mk r s' =>
    rw [hx] at hv
    cases r with
    | ok x =>
      obtain ⟨bs, e⟩ := x
      cases e with
      | none => exact readFull_left hx
      | some e => cases e <;> cases hv
    | err e => cases hv
    | panic => cases hv
    | hang => cases hv
theorem mv_unboundedPayload : Go.Mv St.br unboundedPayload := by
  intro s
  have := mv_readAll s.br
  unfold unboundedPayload
  cases hx : readAll s.br with
  | mk r b =>
    rw [hx] at this
    cases r with
    | ok x =>
      obtain ⟨bs, e⟩ := x
      cases e with
      | none => exact this
      | some e => cases e <;> exact this
    | err e => exact this
    | panic => exact this
    | hang => exact this

/-- At most 65535 bytes, or almost 4 GiB: nothing in between. -/
def Size (n : Nat) : Prop := n ≤ 65535 ∨ (2 ^ 32 - 257 ≤ n ∧ n < 2 ^ 32)

theorem asks_ext : Asks (fun s : BR => s) Size (fun _ => True) aReadExtension := by
  unfold aReadExtension
  refine .bind (.lift mv_read1 (gives_true _)) fun _ _ => ?_
  refine .bind (.lift mv_read1 (gives_true _)) fun _ _ => ?_
  refine .bind (.lift mv_read1 (gives_true _)) fun _ _ => ?_
  refine .bind (.lift mv_read1 (gives_true _)) fun _ _ => ?_
  refine .bind (.lift (mv_skip _) (gives_true _)) fun _ _ => ?_
  refine .bind (.lift mv_read1 (gives_true _)) fun _ _ => ?_
  refine .bind (Q := fun _ => True) (.opt (fun _ => trivial) fun _ => .make (.inl (by omega)) (mv_readExact _) (readExact_left _)) fun _ _ => ?_
  refine .bind (Q := fun _ => True) (.opt (fun _ => trivial) fun _ => .panic) fun _ _ => ?_
  refine .bind (Q := fun _ => True) (.opt (fun _ => trivial) fun _ => .panic) fun _ _ => ?_
  refine .bind (.lift (.opt (.map _ mv_readPStd)) (gives_true _)) fun _ _ => ?_
  exact .bind (Q := fun _ => True) (.opt (fun _ => trivial) fun _ => .panic) fun _ _ => .pure trivial

theorem gives_fixed : Gives (fun h => h.headerDataLength < 256) readFixed := by
  unfold readFixed
  exact gives_bind (gives_true _) fun _ _ => gives_bind (gives_true _) fun _ _ => gives_bind (gives_true _) fun _ _ =>
    gives_bind (gives_true _) fun _ _ => gives_bind (gives_true _) fun _ _ => gives_bind (gives_true _) fun _ _ =>
    gives_bind (gives_true _) fun _ _ => gives_bind (gives_true _) fun _ _ => gives_bind (gives_true _) fun _ _ =>
    gives_bind (gives_true _) fun _ _ => gives_bind (gives_true _) fun _ _ => gives_bind (gives_true _) fun _ _ =>
    gives_bind (gives_read 8) fun _ h => gives_pure h

/-- The length of the header is that announced, also if it wraps around. -/
theorem asks_header : Asks (fun s : BR => s) Size (fun v => 3 ≤ v.2 ∧ v.2 < 259) aReadHeader := by
  unfold aReadHeader
  refine .bind (.lift (mv_marker _ _) (gives_true _)) fun _ _ => ?_
  refine .bind (.lift mv_readFixed gives_fixed) fun h hh => ?_
  refine .bind (.lift (mv_readStamps _) (gives_true _)) fun v _ => ?_
  refine .bind (Q := fun _ => True) (.opt (fun _ => trivial) fun _ => .panic) fun _ _ => ?_
  refine .bind (Q := fun _ => True) (.opt (fun _ => trivial) fun _ => ?_) fun ext _ => ?_
  · rw [map_eq_pure_bind]
    exact .bind asks_ext fun _ _ => .pure trivial
  refine .bind (.lift (mv_readStuffing _) (gives_true _)) fun _ _ => .pure ?_
  simp only [sub32]
  generalize (ext.map (·.2)).getD 0 = m
  have hh : h.headerDataLength < 256 := hh
  omega

theorem asks_headerInto : Asks St.br Size (fun n => 3 ≤ n ∧ n < 259) aHeaderInto := by
  intro s
  obtain ⟨l, h1, h2, h3, h4⟩ := asks_header ⟨s.st.br, s.sizes⟩
  unfold aHeaderInto
  cases hx : aReadHeader ⟨s.st.br, s.sizes⟩ with
  | mk r b =>
    rw [hx] at h1 h3 h4
    cases r with
    | ok x => exact ⟨l, h1, h2, h3, fun v hv => by cases hv; exact h4 x rfl⟩
    | err e => exact ⟨l, h1, h2, h3, fun v hv => by cases hv⟩
    | panic => exact ⟨l, h1, h2, h3, fun v hv => by cases hv⟩
    | hang => exact ⟨l, h1, h2, h3, fun v hv => by cases hv⟩

theorem asks_body {id len : Nat} (hl : len < 2 ^ 16) : Asks St.br Size (fun _ => True) (Packet.aBody id len) := by
  unfold Packet.aBody
  split
  · refine .bind asks_headerInto fun hlen hh => ?_
    split
    · refine .make ?_ (mv_boundedPayload _) (boundedPayload_left _)
      unfold Size
      simp only [sub32]
      omega
    · exact .lift mv_unboundedPayload (gives_true _)
  · split
    · have := Asks.make (σ := St) (gt := St.br) (P := Size) (Q := fun _ => True) (n := len) (m := St.lift (readExact len))
        (.inl (by omega)) (mv_stlift (mv_readExact len)) fun s v hv => readExact_left len s.br v hv
      rw [← bind_assoc]
      exact .bind this fun _ _ => .pure trivial
    · exact .pure trivial

theorem asks_next : Asks St.br Size (fun _ => True) Packet.aNext := by
  unfold Packet.aNext
  refine .bind (.lift (mv_stlift mv_prefix24) (gives_true _)) fun _ _ => ?_
  refine .bind (.lift (mv_readInto (mv_read _)) (gives_true _)) fun id _ => ?_
  refine .bind (.lift (mv_readInto (mv_read _)) (gives_readInto (gives_read 16))) fun len hl => ?_
  exact asks_body hl

/-- **C121**, PES packets.  Whatever the input, a buffer that `Next` asks for has at most 65535 bytes or almost 4 GiB; and if
`Next` accepts the packet, the input had as many bytes. -/
theorem C121_packet (s : St) :
    (∀ n ∈ (Packet.aNext ⟨s, []⟩).2.sizes, n ≤ 65535 ∨ (2 ^ 32 - 257 ≤ n ∧ n < 2 ^ 32)) ∧
    (∀ v, (Packet.next s).1 = .ok v → ∀ n ∈ (Packet.aNext ⟨s, []⟩).2.sizes, 8 * n ≤ bitsLeft s.br) := by
  obtain ⟨l, h1, h2, _, h4⟩ := asks_next ⟨s, []⟩
  have h1 : (Packet.aNext ⟨s, []⟩).2.sizes = l := h1
  rw [h1]
  refine ⟨h2, fun v hv => (h4 v ?_).2⟩
  rw [(C121_same ⟨s, []⟩).1]
  exact hv

/-- So for an input below 4 GiB, accepted packets cost at most 65535 bytes for each buffer. -/
theorem C121_packet_accepted (s : St) (hs : bitsLeft s.br < 8 * (2 ^ 32 - 257)) {v : Unit} (hv : (Packet.next s).1 = .ok v) :
    ∀ n ∈ (Packet.aNext ⟨s, []⟩).2.sizes, n ≤ 65535 := by
  intro n hn
  have h1 := (C121_packet s).1 n hn
  have h2 := (C121_packet s).2 v hv n hn
  omega

/-- **C121** is false: nine bytes of input make `Next` ask for a buffer of 4 GiB less two bytes, since the header is longer
than the announced packet. -/
theorem C121_packet_false :
    (Packet.aNext ⟨⟨{}, BR.ofBytes [0, 0, 1, 0xe0, 0, 1, 0x80, 0, 0]⟩, []⟩).2.sizes = [2 ^ 32 - 2] ∧
    (Packet.aNext ⟨⟨{}, BR.ofBytes [0, 0, 1, 0xe0, 0, 1, 0x80, 0, 0]⟩, []⟩).1 = .err .eof := by
  constructor <;> decide +kernel

/-- an ordinary packet -/
example : (Packet.aNext ⟨⟨{}, BR.ofBytes [0, 0, 1, 0xe0, 0, 5, 0x80, 0, 0, 7, 8]⟩, []⟩).2.sizes = [2] := by
  decide +kernel

end PES
end Mpeg
