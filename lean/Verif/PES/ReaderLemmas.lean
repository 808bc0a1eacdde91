/-
Lemmas about the PES payload reader.
-/
import Verif.PES.ReaderSpec
import Verif.PES.Inv
import Verif.TS.ReaderLemmas
set_option linter.all false
namespace Mpeg.PES
open Spec
open Go.NonInc BR

/-! ### termination -/

def St.size (s : St) : Nat := s.br.size

theorem noninc_marker (k v : Nat) : Go.NonInc BR.size (marker k v) := by
  intro s
  have := noninc_read k s
  unfold marker
  cases hm : BR.read k s with
  | mk r b =>
    rw [hm] at this
    cases r with
    | ok x => simp only; split <;> exact this
    | _ => exact this

theorem noninc_stamp (m : Nat) : Go.NonInc BR.size (readTimeStamp m) := by
  unfold readTimeStamp
  exact bind (noninc_marker _ _) fun _ => bind (noninc_read _) fun _ => bind (noninc_marker _ _) fun _ =>
    bind (noninc_read _) fun _ => bind (noninc_marker _ _) fun _ => bind (noninc_read _) fun _ =>
    bind (noninc_marker _ _) fun _ => pure _

theorem noninc_check {σ : Type} {f : σ → Nat} (c : Bool) (e : Err) :
    Go.NonInc f (Go.check c e : Go σ Unit) := by
  cases c
  · exact throw _
  · exact pure _

theorem noninc_stuffing : ∀ n, Go.NonInc BR.size (readStuffing n)
  | 0 => pure _
  | n + 1 => by
    unfold readStuffing
    exact bind (noninc_read _) fun _ => bind (noninc_check _ _) fun _ => noninc_stuffing n

theorem noninc_readExact (n : Nat) : Go.NonInc BR.size (readExact n) := by
  unfold readExact
  refine bind (noninc_readFull n) fun r => ?_
  split
  · exact pure _
  · exact throw _

theorem noninc_ext : Go.NonInc BR.size readExtension := by
  have hp : Go.NonInc BR.size readPStd := by
    unfold readPStd
    exact bind (noninc_marker _ _) fun _ => bind (noninc_read _) fun _ => bind (noninc_read _) fun _ => pure _
  unfold readExtension
  exact bind noninc_read1 fun _ => bind noninc_read1 fun _ => bind noninc_read1 fun _ =>
    bind noninc_read1 fun _ => bind (noninc_skip _) fun _ => bind noninc_read1 fun _ =>
    bind (opt _ _ (noninc_readExact _)) fun _ => bind (opt _ _ panic) fun _ => bind (opt _ _ panic) fun _ =>
    bind (opt _ _ (map _ hp)) fun _ => bind (opt _ _ panic) fun _ => pure _

theorem noninc_header : Go.NonInc BR.size readHeader := by
  have hf : Go.NonInc BR.size readFixed := by
    unfold readFixed
    repeat first
      | refine bind (noninc_read _) fun _ => ?_
      | refine bind noninc_read1 fun _ => ?_
    exact pure _
  have hs : ∀ f, Go.NonInc BR.size (readStamps f) := by
    intro f
    unfold readStamps
    exact ite (bind (noninc_stamp _) fun _ => pure _) (ite (bind (noninc_stamp _) fun _ =>
      bind (noninc_stamp _) fun _ => pure _) (pure _))
  unfold readHeader
  refine bind (noninc_marker _ _) fun _ => ?_
  refine bind hf fun _ => ?_
  refine bind (hs _) fun _ => ?_
  refine bind (opt _ _ panic) fun _ => ?_
  refine bind (opt _ _ (map _ noninc_ext)) fun _ => ?_
  exact bind (noninc_stuffing _) fun _ => pure _

theorem noninc_lift {α : Type} {m : Go BR α} (h : Go.NonInc BR.size m) : Go.NonInc St.size (St.lift m) :=
  fun s => h s.br
theorem noninc_readInto {α : Type} {m : Go BR α} (h : Go.NonInc BR.size m) (z : α)
    (set : α → Packet → Packet) : Go.NonInc St.size (readInto m z set) := by
  intro s
  have := h s.br
  unfold readInto
  cases hm : m s.br with
  | mk r b => rw [hm] at this; cases r <;> exact this
theorem noninc_headerInto : Go.NonInc St.size headerInto := by
  intro s
  have := noninc_header s.br
  unfold headerInto
  cases hm : readHeader s.br with
  | mk r b => rw [hm] at this; cases r <;> exact this
theorem noninc_bounded (n : Nat) : Go.NonInc St.size (boundedPayload n) := by
  intro s
  have := noninc_readFull n s.br
  unfold boundedPayload
  cases hm : BR.readFull n s.br with
  | mk r b =>
    rw [hm] at this
    cases r with
    | ok a => obtain ⟨bs, e⟩ := a; cases e <;> exact this
    | _ => exact this
theorem noninc_unbounded : Go.NonInc St.size unboundedPayload := by
  intro s
  have := noninc_readAll s.br
  unfold unboundedPayload
  cases hm : BR.readAll s.br with
  | mk r b =>
    rw [hm] at this
    cases r with
    | ok a =>
      obtain ⟨bs, e⟩ := a
      cases e with
      | none => exact this
      | some e => cases e <;> exact this
    | _ => exact this

theorem noninc_body (id len : Nat) : Go.NonInc St.size (Packet.body id len) := by
  unfold Packet.body
  exact ite (bind noninc_headerInto fun _ => ite (noninc_bounded _) noninc_unbounded)
    (ite (bind (noninc_lift (noninc_readExact _)) fun _ => pure _) (pure _))

theorem noninc_prefix : Go.NonInc BR.size prefix24 := by
  unfold prefix24
  exact bind (noninc_peek _) fun _ => bind (noninc_check _ _) fun _ => ignoreErr (noninc_skip _)

theorem next_noninc : Go.NonInc St.size Packet.next := by
  unfold Packet.next
  exact bind (noninc_lift noninc_prefix) fun _ => bind (noninc_readInto (noninc_read _) _ _) fun _ =>
    bind (noninc_readInto (noninc_read _) _ _) fun _ => noninc_body _ _

theorem prefix_inv {u : Unit} {s s' : BR} (h : prefix24 s = (.ok u, s')) :
    BR.Took s (bitsOf 24 1) s' := by
  unfold prefix24 at h
  obtain ⟨v, s1, h1, h⟩ := Go.bind_eq_ok h
  obtain ⟨_, s2, h2, h⟩ := Go.bind_eq_ok h
  obtain ⟨rfl, hk, hv⟩ := BR.peek_inv h1
  by_cases hv1 : v = 1
  · subst hv1
    simp only [beq_self_eq_true, Go.check_true, Go.pure_apply, Prod.mk.injEq, true_and] at h2
    subst h2
    rw [TS.ignoreErr_ok (BR.skip_ok hk)] at h
    simp only [Prod.mk.injEq, true_and] at h
    subst h
    have : bitsOf 24 1 = s1.bits.take 24 := by
      rw [hv]; exact bitsOf_natOfBits' (by simp; omega)
    rw [this]
    exact BR.took_adv hk
  · have : (v == startCodePrefix) = false := by simpa using hv1
    rw [this] at h2
    simp at h2

theorem lift_inv {α : Type} {m : Go BR α} {a : α} {s s' : St} (h : St.lift m s = (.ok a, s')) :
    m s.br = (.ok a, s'.br) ∧ s'.pkt = s.pkt := by
  unfold St.lift at h
  simp only [Prod.mk.injEq] at h
  obtain ⟨h1, rfl⟩ := h
  cases hm : m s.br with
  | mk x y => rw [hm] at h1; simp only at h1; subst h1; exact ⟨rfl, rfl⟩

theorem readInto_inv {α : Type} {m : Go BR α} {z a : α} {set : α → Packet → Packet} {s s' : St}
    (h : readInto m z set s = (.ok a, s')) : m s.br = (.ok a, s'.br) ∧ s'.pkt = set a s.pkt := by
  unfold readInto at h
  cases hm : m s.br with
  | mk x y =>
    rw [hm] at h
    cases x with
    | ok x =>
      simp only [Prod.mk.injEq, Res.ok.injEq] at h
      obtain ⟨rfl, rfl⟩ := h
      exact ⟨rfl, rfl⟩
    | err e => simp at h
    | panic => simp at h
    | hang => simp at h

/-- A successful `Next` has read the six bytes of the packet start and then the body. -/
theorem next_inv {u : Unit} {s s' : St} (h : Packet.next s = (.ok u, s')) :
    ∃ id len b, id < 256 ∧ len < 65536 ∧ BR.Took s.br (encStart id len) b ∧
      Packet.body id len ⟨{ s.pkt with streamID := id, packetLength := len }, b⟩ = (.ok u, s') := by
  unfold Packet.next at h
  obtain ⟨_, s1, h1, h⟩ := Go.bind_eq_ok h
  obtain ⟨id, s2, h2, h⟩ := Go.bind_eq_ok h
  obtain ⟨len, s3, h3, h⟩ := Go.bind_eq_ok h
  obtain ⟨a1, b1⟩ := lift_inv h1
  obtain ⟨a2, b2⟩ := readInto_inv h2
  obtain ⟨a3, b3⟩ := readInto_inv h3
  obtain ⟨t2, l2⟩ := read_inv' a2
  obtain ⟨t3, l3⟩ := read_inv' a3
  refine ⟨id, len, s3.br, l2, l3, ?_, ?_⟩
  · have := (prefix_inv a1).trans (t2.trans t3)
    simpa only [encStart, List.append_assoc] using this
  · rw [← b1]
    have : s3 = ⟨{ s1.pkt with streamID := id, packetLength := len }, s3.br⟩ := by
      cases s3; simp only at b3 ⊢; rw [b3, b2]
    rw [← this]; exact h

theorem took_size {s s' : BR} {l : List Bool} (h : BR.Took s l s') : s'.size + l.length = s.size := by
  have := h.bits
  simp only [BR.size, this, h.later, List.length_append]
  omega

theorem next_dec {u : Unit} {s s' : St} (h : Packet.next s = (.ok u, s')) : s'.size + 48 ≤ s.size := by
  obtain ⟨id, len, b, _, _, t, h⟩ := next_inv h
  have h1 := took_size t
  have h2 := noninc_body id len ⟨{ s.pkt with streamID := id, packetLength := len }, b⟩
  rw [h] at h2
  have : (encStart id len).length = 48 := by simp [encStart]
  simp only [St.size] at *
  omega

/-! ### never hangs -/

theorem nohang_marker (k v : Nat) (s : BR) : (marker k v s).1 ≠ .hang ∧ (marker k v s).1 ≠ .panic := by
  unfold marker
  have := BR.safe_read k s
  cases hm : BR.read k s with
  | mk r b =>
    rw [hm] at this
    cases r with
    | ok x => simp only; split <;> simp
    | err e => simp
    | panic => simp at this
    | hang => simp at this

theorem safe_marker (k v : Nat) : Go.Safe (marker k v) := fun s => (nohang_marker k v s).symm

/-- never runs out of fuel -/
def NoHang {σ α : Type} (m : Go σ α) : Prop := ∀ s, (m s).1 ≠ .hang

theorem NoHang.of_safe {σ α : Type} {m : Go σ α} (h : Go.Safe m) : NoHang m := fun s => (h s).2
theorem NoHang.bind {σ α β : Type} {m : Go σ α} {f : α → Go σ β} (hm : NoHang m) (hf : ∀ a, NoHang (f a)) :
    NoHang (m >>= f) := by
  intro s
  have := hm s
  rw [Go.bind_apply]
  cases h : m s with
  | mk r s' =>
    rw [h] at this
    cases r with
    | ok a => exact hf a s'
    | err e => simp
    | panic => simp
    | hang => simp at this
theorem NoHang.opt {σ α : Type} {c : Bool} {d : α} {m : Go σ α} (hm : NoHang m) : NoHang (Go.opt c d m) := by
  cases c
  · exact fun s => by simp
  · exact hm
theorem NoHang.ite {σ α : Type} {c : Prop} [Decidable c] {m m' : Go σ α} (h : NoHang m) (h' : NoHang m') :
    NoHang (if c then m else m') := by split <;> assumption
theorem NoHang.pure {σ α : Type} (a : α) : NoHang (Pure.pure a : Go σ α) := fun s => by simp
theorem NoHang.panic {σ α : Type} : NoHang (Go.panic : Go σ α) := fun s => by simp
theorem NoHang.map {σ α β : Type} {m : Go σ α} (f : α → β) (hm : NoHang m) : NoHang (f <$> m) := by
  rw [map_eq_pure_bind]; exact NoHang.bind hm (fun _ => NoHang.pure _)

theorem safe_stamp (m : Nat) : Go.Safe (readTimeStamp m) := by
  unfold readTimeStamp
  exact .bind (safe_marker _ _) fun _ => .bind (safe_read _) fun _ => .bind (safe_marker _ _) fun _ =>
    .bind (safe_read _) fun _ => .bind (safe_marker _ _) fun _ => .bind (safe_read _) fun _ =>
    .bind (safe_marker _ _) fun _ => .pure _

theorem safe_stuffing : ∀ n, Go.Safe (readStuffing n)
  | 0 => .pure _
  | n + 1 => by
    unfold readStuffing
    exact .bind (safe_read _) fun _ => .bind .check fun _ => safe_stuffing n

theorem safe_readExact (n : Nat) : Go.Safe (readExact n) := by
  unfold readExact
  refine .bind (safe_readFull n) fun r => ?_
  split
  · exact .pure _
  · exact .throw _

theorem safe_pstd : Go.Safe readPStd := by
  unfold readPStd
  exact .bind (safe_marker _ _) fun _ => .bind (safe_read _) fun _ => .bind (safe_read _) fun _ => .pure _

theorem nohang_ext : NoHang readExtension := by
  have r1 : NoHang BR.read1 := .of_safe safe_read1
  unfold readExtension
  exact .bind r1 fun _ => .bind r1 fun _ => .bind r1 fun _ => .bind r1 fun _ =>
    .bind (.of_safe (safe_skip _)) fun _ => .bind r1 fun _ => .bind (.opt (.of_safe (safe_readExact _))) fun _ =>
    .bind (.opt .panic) fun _ => .bind (.opt .panic) fun _ => .bind (.opt (.map _ (.of_safe safe_pstd))) fun _ =>
    .bind (.opt .panic) fun _ => .pure _

theorem safe_fixed : Go.Safe readFixed := by
  unfold readFixed
  exact .bind (safe_read _) fun _ => .bind safe_read1 fun _ => .bind safe_read1 fun _ =>
    .bind safe_read1 fun _ => .bind safe_read1 fun _ => .bind (safe_read _) fun _ =>
    .bind safe_read1 fun _ => .bind safe_read1 fun _ => .bind safe_read1 fun _ =>
    .bind safe_read1 fun _ => .bind safe_read1 fun _ => .bind safe_read1 fun _ =>
    .bind (safe_read _) fun _ => .pure _

theorem safe_stamps (f : Nat) : Go.Safe (readStamps f) := by
  unfold readStamps
  exact .ite (.bind (safe_stamp _) fun _ => .pure _) (.ite (.bind (safe_stamp _) fun _ =>
    .bind (safe_stamp _) fun _ => .pure _) (.pure _))

theorem nohang_header : NoHang readHeader := by
  unfold readHeader
  exact .bind (.of_safe (safe_marker _ _)) fun _ => .bind (.of_safe safe_fixed) fun _ =>
    .bind (.of_safe (safe_stamps _)) fun _ => .bind (.opt .panic) fun _ =>
    .bind (.opt (.map _ nohang_ext)) fun _ => .bind (.of_safe (safe_stuffing _)) fun _ => .pure _

theorem nohang_headerInto : NoHang headerInto := by
  intro s
  have := nohang_header s.br
  unfold headerInto
  cases hm : readHeader s.br with
  | mk r b => rw [hm] at this; cases r <;> simp_all
theorem safe_bounded (n : Nat) : Go.Safe (boundedPayload n) := by
  intro s
  have := safe_readFull n s.br
  unfold boundedPayload
  cases hm : BR.readFull n s.br with
  | mk r b =>
    rw [hm] at this
    cases r with
    | ok a => obtain ⟨bs, e⟩ := a; cases e <;> simp
    | _ => simp_all
theorem safe_unbounded : Go.Safe unboundedPayload := by
  intro s
  have := safe_readAll s.br
  unfold unboundedPayload
  cases hm : BR.readAll s.br with
  | mk r b =>
    rw [hm] at this
    cases r with
    | ok a =>
      obtain ⟨bs, e⟩ := a
      cases e with
      | none => simp
      | some e => cases e <;> simp
    | _ => simp_all
theorem safe_lift {α : Type} {m : Go BR α} (h : Go.Safe m) : Go.Safe (St.lift m) := fun s => h s.br
theorem safe_readInto {α : Type} {m : Go BR α} (h : Go.Safe m) (z : α) (set : α → Packet → Packet) :
    Go.Safe (readInto m z set) := by
  intro s
  have := h s.br
  unfold readInto
  cases hm : m s.br with
  | mk r b => rw [hm] at this; cases r <;> simp_all
theorem safe_prefix : Go.Safe prefix24 := by
  unfold prefix24
  exact .bind (safe_peek _) fun _ => .bind .check fun _ => .ignoreErr (safe_skip _)

/-- `Next` always returns (or panics). -/
theorem next_nohang : NoHang Packet.next := by
  unfold Packet.next Packet.body
  exact .bind (.of_safe (safe_lift safe_prefix)) fun _ => .bind (.of_safe (safe_readInto (safe_read _) _ _))
    fun _ => .bind (.of_safe (safe_readInto (safe_read _) _ _)) fun _ =>
    .ite (.bind nohang_headerInto fun _ => .ite (.of_safe (safe_bounded _)) (.of_safe safe_unbounded))
      (.ite (.bind (.of_safe (safe_lift (safe_readExact _))) fun _ => .pure _) (.pure _))

/-! ### the payload reader -/

@[simp] theorem payloads_nil : payloads [] = [] := rfl
@[simp] theorem payloads_cons (p : Packet) (ps : List Packet) :
    payloads (p :: ps) = p.payload ++ payloads ps := by simp [payloads]

theorem Run.length_le {s s' : St} {ps : List Packet} (h : Run s ps s') :
    48 * ps.length + s'.size ≤ s.size := by
  induction h with
  | nil s => simp
  | cons h _ ih => have := next_dec h; simp only [List.length_cons]; omega

theorem Run.append {s s1 s2 : St} {ps qs : List Packet} (h : Run s ps s1) (h' : Run s1 qs s2) :
    Run s (ps ++ qs) s2 := by
  induction h with
  | nil s => exact h'
  | cons h _ ih => exact .cons h (ih h')

theorem fill_zero (f : Nat) (out rem : List UInt8) (r : PR) :
    PR.fill (f + 1) 0 out rem r = (.ok (out, none), { r with remainder := r.remainder ++ rem }) := by
  simp [PR.fill]
theorem fill_err (f n : Nat) (out rem : List UInt8) (r : PR) {e : Err} {s : St} (h0 : n ≠ 0)
    (h : Packet.next r.st = (.err e, s)) :
    PR.fill (f + 1) n out rem r = (.ok (out, some e), { r with st := s }) := by
  simp [PR.fill, h, h0]
theorem fill_ok (f n : Nat) (out rem : List UInt8) (r : PR) {s : St} (h0 : n ≠ 0)
    (h : Packet.next r.st = (.ok (), s)) :
    PR.fill (f + 1) n out rem r = PR.fill f (n - min n s.pkt.payload.length)
      (out ++ s.pkt.payload.take n) (s.pkt.payload.drop n) { r with st := s } := by
  simp [PR.fill, h, h0]

theorem fill_enough {s s' : St} {ps : List Packet} (h : Run s ps s') :
    ∀ (fuel n : Nat) (out rem : List UInt8) (r : PR), r.st = s → ps.length < fuel →
      n ≤ (payloads ps).length → (n ≠ 0 → rem = []) →
      ∃ ps2 s1 rem', Run s1 ps2 s' ∧ ps2.length ≤ ps.length ∧
        PR.fill fuel n out rem r = (.ok (out ++ (payloads ps).take n, none),
          { r with st := s1, remainder := r.remainder ++ rem' }) ∧
        rem' ++ payloads ps2 = rem ++ (payloads ps).drop n := by
  induction h with
  | nil s =>
    intro fuel n out rem r hr hf hn hrem
    obtain ⟨f, rfl⟩ : ∃ f, fuel = f + 1 := ⟨fuel - 1, by omega⟩
    have : n = 0 := by simpa using hn
    subst this
    exact ⟨[], s, rem, .nil s, by simp, by simp [PR.fill, ← hr], by simp⟩
  | @cons s s1 s2 ps h hrun ih =>
    intro fuel n out rem r hr hf hn hrem
    obtain ⟨f, rfl⟩ : ∃ f, fuel = f + 1 := ⟨fuel - 1, by omega⟩
    by_cases h0 : n = 0
    · subst h0
      exact ⟨s1.pkt :: ps, s, rem, .cons h hrun, Nat.le_refl _, by simp [PR.fill, ← hr], by simp⟩
    · have hrem0 := hrem h0
      subst hrem0
      simp only [List.length_cons] at hf
      rw [payloads_cons, List.length_append] at hn
      rw [payloads_cons]
      obtain ⟨ps2, st, rem', hr2, hl2, he, hd⟩ :=
        ih f (n - min n s1.pkt.payload.length) (out ++ s1.pkt.payload.take n)
          (s1.pkt.payload.drop n) { r with st := s1 } rfl (by omega) (by omega) (by
            intro hne
            have : s1.pkt.payload.length < n := by omega
            exact List.drop_eq_nil_of_le (by omega))
      refine ⟨ps2, st, rem', hr2, by simp only [List.length_cons]; omega, ?_, ?_⟩
      · rw [fill_ok f n out [] r h0 (hr ▸ h), he]
        simp only [List.take_append, List.append_assoc]
        rw [show n - min n s1.pkt.payload.length = n - s1.pkt.payload.length by omega]
      · rw [hd, List.drop_append, List.nil_append]
        rw [show n - min n s1.pkt.payload.length = n - s1.pkt.payload.length by omega]

theorem fill_more {s s' : St} {ps : List Packet} (h : Run s ps s') :
    ∀ (f n : Nat) (out rem : List UInt8) (r : PR), r.st = s →
      (payloads ps).length < n → rem = [] →
        PR.fill (f + 1 + ps.length) n out rem r =
          PR.fill (f + 1) (n - (payloads ps).length) (out ++ payloads ps) [] { r with st := s' } := by
  induction h with
  | nil s =>
    intro f n out rem r hr hn hrem
    subst hr; subst hrem
    simp
  | @cons s s1 s2 ps h hrun ih =>
    intro f n out rem r hr hn hrem
    subst hrem
    have h0 : n ≠ 0 := by omega
    rw [payloads_cons] at hn ⊢
    rw [List.length_cons, ← Nat.add_assoc]
    simp only [List.length_append] at hn ⊢
    rw [fill_ok _ n out [] r h0 (hr ▸ h),
      ih f _ _ _ { r with st := s1 } rfl (by omega) (List.drop_eq_nil_of_le (by omega)),
      List.take_of_length_le (by omega), List.append_assoc]
    congr 1
    omega

/-- the bytes still to be delivered from the current part -/
def content (r : PR) (ps : List Packet) : List UInt8 := r.remainder ++ payloads ps

theorem read_enough {r : PR} {ps : List Packet} {s' : St} (h : Run r.st ps s')
    {fuel n : Nat} (hf : ps.length < fuel) (hn : n ≤ (content r ps).length) :
    ∃ r' ps', PR.read fuel n r = (.ok ((content r ps).take n, none), r') ∧ Run r'.st ps' s' ∧
      ps'.length ≤ ps.length ∧ content r' ps' = (content r ps).drop n := by
  unfold content at *
  rw [List.length_append] at hn
  unfold PR.read
  obtain ⟨ps2, s1, rem', h1, h3, h4, h5⟩ := fill_enough h fuel
    (n - r.remainder.length) (r.remainder.take n) [] { r with remainder := r.remainder.drop n } rfl hf
    (by omega) (fun _ => rfl)
  refine ⟨{ r with st := s1, remainder := r.remainder.drop n ++ rem' }, ps2, ?_, h1, h3, ?_⟩
  · rw [h4, List.take_append]
  · simp only [List.append_assoc]
    rw [h5, List.drop_append, List.nil_append]

theorem read_end {r : PR} {ps : List Packet} {s' s'' : St} {e : Err} (h : Run r.st ps s')
    (he : Packet.next s' = (.err e, s'')) {fuel n : Nat} (hf : ps.length < fuel)
    (hn : (content r ps).length < n) :
    PR.read fuel n r = (.ok (content r ps, some e), ⟨s'', []⟩) := by
  obtain ⟨f, rfl⟩ : ∃ f, fuel = f + 1 + ps.length := ⟨fuel - 1 - ps.length, by omega⟩
  unfold content at *
  rw [List.length_append] at hn
  unfold PR.read
  rw [fill_more h f _ _ _ { r with remainder := r.remainder.drop n } rfl (by omega) rfl]
  rw [fill_err _ _ _ _ _ (by omega) he]
  rw [List.take_of_length_le (by omega), List.drop_eq_nil_of_le (by omega)]

theorem reads_cons_go {fuel n : Nat} {ns : List Nat} {r r' r'' : PR} {d : List UInt8} {e : Option Err}
    {os : List (List UInt8 × Option Err)} (he : e = none ∨ e = some .eop)
    (h : PR.read fuel n r = (.ok (d, e), r')) (h' : PR.reads fuel ns r' = (.ok os, r'')) :
    PR.reads fuel (n :: ns) r = (.ok ((d, e) :: os), r'') := by
  rw [PR.reads, Go.bind_ok h]
  simp only [he, if_true]
  rw [Go.bind_ok h']
  rfl
theorem reads_cons_stop {fuel n : Nat} {ns : List Nat} {r r' : PR} {d : List UInt8} {e : Err}
    (he : e ≠ .eop) (h : PR.read fuel n r = (.ok (d, some e), r')) :
    PR.reads fuel (n :: ns) r = (.ok [(d, some e)], r') := by
  rw [PR.reads, Go.bind_ok h]
  have : ¬ (some e = none ∨ some e = some Err.eop) := by simp [he]
  simp only [this, if_false]
  rfl

/-- number of packets in a list of parts -/
def total (pss : List (List Packet)) : Nat := (pss.map List.length).sum

theorem reads_parts : ∀ (ns : List Nat) (r : PR) (ps : List Packet) (pss : List (List Packet)) (e : Err)
    (fuel : Nat), (∃ s1, Run r.st ps s1 ∧
      ((pss = [] ∧ e ≠ .eop ∧ ∃ s2, Packet.next s1 = (.err e, s2)) ∨
       (∃ s2, pss ≠ [] ∧ Packet.next s1 = (.err .eop, s2) ∧ Parts s2 pss e))) →
    ps.length + total pss < fuel →
    ∃ r', PR.reads fuel ns r = (.ok (deliverParts e (content r ps) (pss.map payloads) ns), r') := by
  intro ns
  induction ns with
  | nil => intro r ps pss e fuel h hf; exact ⟨r, by cases pss <;> simp [PR.reads, deliverParts]⟩
  | cons n ns ih =>
    intro r ps pss e fuel h hf
    obtain ⟨s1, hrun, hend⟩ := h
    by_cases hn : n ≤ (content r ps).length
    · obtain ⟨r1, ps1, h1, h2, h3, h4⟩ := read_enough (fuel := fuel) hrun (by omega) hn
      obtain ⟨r', h5⟩ := ih r1 ps1 pss e fuel ⟨s1, h2, hend⟩ (by omega)
      refine ⟨r', ?_⟩
      rw [reads_cons_go (.inl rfl) h1 h5, h4]
      cases pss <;> simp only [List.map_nil, List.map_cons] <;> (conv => rhs; rw [deliverParts]) <;>
        simp only [hn, if_true]
    · rcases hend with ⟨rfl, he, s2, h1⟩ | ⟨s2, hne, h1, hp⟩
      · refine ⟨⟨s2, []⟩, ?_⟩
        rw [reads_cons_stop he (read_end hrun h1 (by omega) (by omega))]
        simp [deliverParts, hn]
      · have hr := read_end (n := n) hrun h1 (by omega : ps.length < fuel) (by omega)
        cases hp with
        | @last s s1' s2' ps' e hr1 hn1 hne1 =>
          simp only [total, List.map_cons, List.map_nil, List.sum_cons, List.sum_nil] at hf
          obtain ⟨r', h5⟩ := ih ⟨s2, []⟩ ps' [] e fuel ⟨s1', hr1, .inl ⟨rfl, hne1, s2', hn1⟩⟩
            (by simp [total]; omega)
          refine ⟨r', ?_⟩
          rw [reads_cons_go (.inr rfl) hr h5]
          simp only [List.map_nil, List.map_cons]
          (conv => rhs; rw [deliverParts])
          simp only [hn, if_false]
          rfl
        | @part s s1' s2' ps' pss' e hr1 hn1 hp1 =>
          simp only [total, List.map_cons, List.sum_cons] at hf
          have hne' : pss' ≠ [] := by cases hp1 <;> simp
          obtain ⟨r', h5⟩ := ih ⟨s2, []⟩ ps' pss' e fuel ⟨s1', hr1, .inr ⟨s2', hne', hn1, hp1⟩⟩
            (by simp only [total]; omega)
          refine ⟨r', ?_⟩
          rw [reads_cons_go (.inr rfl) hr h5]
          simp only [List.map_cons]
          (conv => rhs; rw [deliverParts])
          simp only [hn, if_false]
          rfl

end Mpeg.PES
