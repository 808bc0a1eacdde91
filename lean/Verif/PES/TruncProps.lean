/-
Property theorems C92: truncated PES packets.
-/
import Verif.PES.Props
import Verif.Video.CausLemmas
set_option linter.all false
namespace Mpeg.PES
open Spec

/-! ### a run on a truncated input does the same as on the whole one, or fails -/

instance : HasBR St := ⟨St.br, fun s t => { s with br := s.br.ext t }, fun _ _ => rfl⟩

/-- errors that the end of the input may cause -/
def Cut (e : Err) : Prop := IsEnd e ∨ e = .markerNotFound

open HasBR in
def Tr {σ α : Type} [HasBR σ] (m : Go σ α) : Prop := ∀ s t, (br s).Plain → (br (m s).2).Plain ∧
  match (m s).1 with
  | .ok a => m (ext s t) = (.ok a, ext (m s).2 t)
  | .err e => Cut e ∨ m (ext s t) = (.err e, ext (m s).2 t)
  | .panic => (m (ext s t)).1 = .panic
  | .hang => (m (ext s t)).1 = .hang

namespace Tr
open HasBR
variable {σ α β : Type} [HasBR σ]

theorem of_caus {m : Go σ α} (h : Caus m) : Tr m := by
  intro s t hp
  obtain ⟨h1, h2⟩ := h s t hp
  refine ⟨h1, ?_⟩
  cases hx : (m s).1 <;> rw [hx] at h2
  · rcases h2 with h2 | ⟨⟨⟩, _⟩
    exact h2
  · rcases h2 with h2 | h2
    · exact .inl (.inl h2.1)
    · exact .inr h2.2
  · exact h2
  · exact h2

theorem pure (a : α) : Tr (Pure.pure a : Go σ α) := of_caus (Caus.pure a)

theorem bind {m : Go σ α} {f : α → Go σ β} (hm : Tr m) (hf : ∀ a, Tr (f a)) : Tr (m >>= f) := by
  intro s t hp
  obtain ⟨h1, h2⟩ := hm s t hp
  cases hx : m s with
  | mk r s' =>
    rw [hx] at h1 h2
    cases r with
    | ok a =>
      rw [Go.bind_ok hx, Go.bind_ok h2]
      exact hf a s' t h1
    | err e =>
      rw [Go.bind_err hx]
      refine ⟨h1, ?_⟩
      rcases h2 with h2 | h2
      · exact .inl h2
      · exact .inr (Go.bind_err h2)
    | panic =>
      rw [Go.bind_panic hx]
      refine ⟨h1, ?_⟩
      cases hy : m (ext s t) with
      | mk r' s'' =>
        rw [hy] at h2
        simp only at h2
        subst h2
        show ((m >>= f) (ext s t)).1 = _
        rw [Go.bind_panic hy]
    | hang =>
      rw [Go.bind_hang hx]
      refine ⟨h1, ?_⟩
      cases hy : m (ext s t) with
      | mk r' s'' =>
        rw [hy] at h2
        simp only at h2
        subst h2
        show ((m >>= f) (ext s t)).1 = _
        rw [Go.bind_hang hy]

theorem map {m : Go σ α} (f : α → β) (hm : Tr m) : Tr (f <$> m) := by
  rw [map_eq_pure_bind]; exact bind hm fun _ => pure _
theorem opt {c : Bool} {d : α} {m : Go σ α} (hm : Tr m) : Tr (Go.opt c d m) := by
  cases c
  · exact pure _
  · exact hm
theorem ite {c : Prop} [Decidable c] {m m' : Go σ α} (hm : Tr m) (hm' : Tr m') : Tr (if c then m else m') := by
  split <;> assumption
end Tr

theorem tr_read (k : Nat) : Tr (BR.read k) := .of_caus (BR.caus_read k)
theorem tr_read1 : Tr BR.read1 := .of_caus BR.caus_read1
theorem tr_skip (k : Nat) : Tr (BR.skip k) := .of_caus (BR.caus_skip k)

theorem tr_marker (k v : Nat) : Tr (marker k v) := by
  intro s t hp
  obtain ⟨h1, h2⟩ := tr_read k s t hp
  unfold marker
  cases hx : BR.read k s with
  | mk r s' =>
    rw [hx] at h1 h2
    cases r with
    | ok x =>
      have h2 : BR.read k (HasBR.ext s t) = (.ok x, HasBR.ext s' t) := h2
      rw [h2]
      by_cases hv : x = v
      · simp only [hv, if_true]; exact ⟨h1, trivial⟩
      · simp only [hv, if_false]; exact ⟨h1, .inl (.inr rfl)⟩
    | err e => exact ⟨h1, .inl (.inr rfl)⟩
    | panic => exact absurd (congrArg Prod.fst hx) (BR.safe_read k s).1
    | hang => exact absurd (congrArg Prod.fst hx) (BR.safe_read k s).2

theorem tr_stamp (m : Nat) : Tr (readTimeStamp m) :=
  .bind (tr_marker _ _) fun _ => .bind (tr_read _) fun _ => .bind (tr_marker _ _) fun _ => .bind (tr_read _) fun _ =>
    .bind (tr_marker _ _) fun _ => .bind (tr_read _) fun _ => .bind (tr_marker _ _) fun _ => .pure _

theorem tr_stuffing : ∀ n, Tr (readStuffing n)
  | 0 => .pure _
  | n + 1 => .bind (tr_read _) fun _ => .bind (.of_caus (Caus.check (by decide))) fun _ => tr_stuffing n

theorem tr_readExact (n : Nat) : Tr (readExact n) := by
  intro s t hp
  have hp' : s.Plain := hp
  unfold readExact
  by_cases hk : 8 * n ≤ s.bits.length
  · have e1 := BR.readFull_ok hk
    have e2 : BR.readFull n (s.ext t) = _ := BR.readFull_ok (by simp [BR.ext]; omega)
    rw [BR.adv_ext hk] at e2
    rw [Go.bind_ok e1, show HasBR.ext s t = s.ext t from rfl, Go.bind_ok e2]
    refine ⟨hp, ?_⟩
    have := bytesOfBits_ext n s.bits t hk
    simp only [BR.ext, this]
    rfl
  · have e1 := BR.readFull_short (show s.bits.length < 8 * n by omega)
    rw [Go.bind_ok e1]
    exact ⟨BR.plain_failTo hp', .inl (.inl (BR.failErr_end hp'))⟩

theorem tr_pstd : Tr readPStd := .bind (tr_marker _ _) fun _ => .bind (tr_read _) fun _ => .bind (tr_read _) fun _ => .pure _

theorem tr_panic {α : Type} : Tr (Go.panic : Go BR α) := .of_caus Caus.panic

theorem tr_ext : Tr readExtension :=
  .bind tr_read1 fun _ => .bind tr_read1 fun _ => .bind tr_read1 fun _ => .bind tr_read1 fun _ => .bind (tr_skip _) fun _ =>
    .bind tr_read1 fun _ => .bind (.opt (tr_readExact _)) fun _ => .bind (.opt tr_panic) fun _ => .bind (.opt tr_panic) fun _ =>
    .bind (.opt (.map _ tr_pstd)) fun _ => .bind (.opt tr_panic) fun _ => .pure _

theorem tr_fixed : Tr readFixed :=
  .bind (tr_read _) fun _ => .bind tr_read1 fun _ => .bind tr_read1 fun _ => .bind tr_read1 fun _ => .bind tr_read1 fun _ =>
    .bind (tr_read _) fun _ => .bind tr_read1 fun _ => .bind tr_read1 fun _ => .bind tr_read1 fun _ => .bind tr_read1 fun _ =>
    .bind tr_read1 fun _ => .bind tr_read1 fun _ => .bind (tr_read _) fun _ => .pure _

theorem tr_stamps (f : Nat) : Tr (readStamps f) := by
  unfold readStamps
  exact .ite (.bind (tr_stamp _) fun _ => .pure _)
    (.ite (.bind (tr_stamp _) fun _ => .bind (tr_stamp _) fun _ => .pure _) (.pure _))

theorem tr_header : Tr readHeader :=
  .bind (tr_marker _ _) fun _ => .bind tr_fixed fun _ => .bind (tr_stamps _) fun _ => .bind (.opt tr_panic) fun _ =>
    .bind (.opt (.map _ tr_ext)) fun _ => .bind (tr_stuffing _) fun _ => .pure _

theorem tr_lift {α : Type} {m : Go BR α} (h : Tr m) : Tr (St.lift m) := by
  intro s t hp
  obtain ⟨h1, h2⟩ := h s.br t hp
  unfold St.lift
  refine ⟨h1, ?_⟩
  show match (m s.br).1 with | .ok a => _ | .err e => _ | .panic => _ | .hang => _
  cases hx : (m s.br).1 <;> rw [hx] at h2
  · show ((m (s.br.ext t)).1, _) = _
    have h2 : m (s.br.ext t) = _ := h2
    simp only [HasBR.ext, h2]
  · rcases h2 with h2 | h2
    · exact .inl h2
    · right
      have h2 : m (s.br.ext t) = _ := h2
      simp only [HasBR.ext, h2]
  · exact h2
  · exact h2

theorem tr_readInto {α : Type} {m : Go BR α} (h : Tr m) (z : α) (set : α → Packet → Packet) : Tr (readInto m z set) := by
  intro s t hp
  obtain ⟨h1, h2⟩ := h s.br t hp
  unfold readInto
  cases hx : m s.br with
  | mk r b =>
    rw [hx] at h1 h2
    cases r with
    | ok a =>
      have h2 : m (s.br.ext t) = _ := h2
      simp only [HasBR.ext, h2]
      exact ⟨h1, trivial⟩
    | err e =>
      refine ⟨h1, ?_⟩
      rcases h2 with h2 | h2
      · exact .inl h2
      · right
        have h2 : m (s.br.ext t) = _ := h2
        simp only [HasBR.ext, h2]
    | panic =>
      refine ⟨h1, ?_⟩
      have h2 : (m (s.br.ext t)).1 = _ := h2
      cases hy : m (s.br.ext t) with
      | mk r' s'' =>
        rw [hy] at h2
        simp only at h2
        subst h2
        simp only [HasBR.ext, hy]
    | hang =>
      refine ⟨h1, ?_⟩
      have h2 : (m (s.br.ext t)).1 = _ := h2
      cases hy : m (s.br.ext t) with
      | mk r' s'' =>
        rw [hy] at h2
        simp only at h2
        subst h2
        simp only [HasBR.ext, hy]

theorem headerInto_eq : headerInto = (fun x => x.2) <$> (readInto ((fun x : Header × Nat => (some x.1, x.2)) <$> readHeader)
    (none, 0) (fun x p => { p with header := x.1 })) := by
  funext s
  rw [Go.map_apply]
  unfold headerInto readInto
  rw [Go.map_apply]
  cases readHeader s.br with
  | mk r b => cases r <;> rfl

theorem tr_headerInto : Tr headerInto := by
  rw [headerInto_eq]
  exact .map _ (tr_readInto (.map _ tr_header) _ _)

theorem tr_bounded (n : Nat) : Tr (boundedPayload n) := by
  intro s t hp
  have hp' : s.br.Plain := hp
  unfold boundedPayload
  by_cases hk : 8 * n ≤ s.br.bits.length
  · have e1 := BR.readFull_ok hk
    have e2 : BR.readFull n (s.br.ext t) = _ := BR.readFull_ok (by simp [BR.ext]; omega)
    rw [BR.adv_ext hk] at e2
    have := bytesOfBits_ext n s.br.bits t hk
    simp only [HasBR.ext, e1, e2]
    refine ⟨hp, ?_⟩
    simp only [BR.ext, this]
  · have e1 := BR.readFull_short (show s.br.bits.length < 8 * n by omega)
    simp only [e1]
    exact ⟨BR.plain_failTo hp', .inl (.inl (BR.failErr_end hp'))⟩

theorem tr_prefix : Tr prefix24 := by
  intro s t hp
  have hp' : s.Plain := hp
  by_cases hk : 24 ≤ s.bits.length
  · have e1 : prefix24 = (do
        let v ← BR.peek 24
        Go.check (v == startCodePrefix) .startCodePrefixNotFound
        Go.ignoreErr (BR.skip 24)) := rfl
    have key : ∀ x : BR, 24 ≤ x.bits.length → prefix24 x = (do
        let v ← BR.peek 24
        Go.check (v == startCodePrefix) .startCodePrefixNotFound
        BR.skip 24) x := by
      intro x hx
      rw [e1]
      rw [Go.bind_ok (BR.peek_ok hx), Go.bind_ok (BR.peek_ok hx)]
      cases (natOfBits (List.take 24 x.bits) == startCodePrefix)
      · rfl
      · rw [Go.check_true]
        show Go.ignoreErr (BR.skip 24) x = BR.skip 24 x
        unfold Go.ignoreErr
        rw [BR.skip_ok hx]
    rw [key s hk, key (HasBR.ext s t) (by simp [HasBR.ext, BR.ext]; omega)]
    exact Tr.bind (.of_caus (BR.caus_peek 24)) (fun _ => .bind (.of_caus (Caus.check (by decide))) fun _ => tr_skip _) s t hp
  · have e1 : prefix24 s = (.err s.failErr, s.failTo) := by
      unfold prefix24
      rw [Go.bind_err (BR.peek_short (by omega))]
    rw [e1]
    exact ⟨BR.plain_failTo hp', .inl (.inl (BR.failErr_end hp'))⟩

/-- `Next` on a packet whose length is given. -/
theorem tr_body {id len : Nat} (h : len ≠ 0 ∨ hasPESHeader id = false) : Tr (Packet.body id len) := by
  unfold Packet.body
  split
  · rename_i hh
    have hl : len > 0 := by
      rcases h with h | h
      · omega
      · simp [hh] at h
    simp only [hl, if_true]
    exact .bind tr_headerInto fun _ => tr_bounded _
  · split
    · exact .bind (tr_lift (tr_readExact _)) fun _ => .pure _
    · exact .pure _

/-- `Next`, where packets of unspecified length are left out. -/
def next2 : Go St Unit := do
  St.lift prefix24
  let id ← readInto (BR.read 8) 0 (fun v p => { p with streamID := v })
  let len ← readInto (BR.read 16) 0 (fun v p => { p with packetLength := v })
  if len ≠ 0 ∨ hasPESHeader id = false then Packet.body id len else Go.panic

theorem tr_next2 : Tr next2 :=
  .bind (tr_lift tr_prefix) fun _ => .bind (tr_readInto (tr_read _) _ _) fun id =>
    .bind (tr_readInto (tr_read _) _ _) fun len => by
      by_cases h : len ≠ 0 ∨ hasPESHeader id = false
      · rw [if_pos h]; exact tr_body h
      · rw [if_neg h]; exact .of_caus Caus.panic

theorem bind_or_panic {σ α β : Type} {m : Go σ α} {f g : α → Go σ β} (h : ∀ a s, f a s = g a s ∨ (f a s).1 = .panic) (s : σ) :
    (m >>= f) s = (m >>= g) s ∨ ((m >>= f) s).1 = .panic := by
  rw [Go.bind_apply, Go.bind_apply]
  cases m s with
  | mk r s' =>
    cases r with
    | ok a => exact h a s'
    | err e => exact .inl rfl
    | panic => exact .inl rfl
    | hang => exact .inl rfl

theorem next2_or (s : St) : next2 s = Packet.next s ∨ (next2 s).1 = .panic := by
  refine bind_or_panic (fun _ s1 => bind_or_panic (fun id s2 => bind_or_panic (fun len s3 => ?_) s2) s1) s
  by_cases h : len ≠ 0 ∨ hasPESHeader id = false
  · left; rw [if_pos h]
  · right; rw [if_neg h]; rfl

theorem next2_start {r : List Bool} {pos : Nat} {stop : Err} {later : List (List Bool × Err)} (p : Packet) (id len : Nat)
    (hid : id < 256) (hl : len < 65536) (h : len ≠ 0 ∨ hasPESHeader id = false) :
    next2 ⟨p, ⟨encStart id len ++ r, pos, stop, later⟩⟩ = Packet.next ⟨p, ⟨encStart id len ++ r, pos, stop, later⟩⟩ := by
  rw [next_start p id len hid hl]
  simp only [next2, encStart, List.append_assoc, Go.bind_apply, lift_apply, prefix24_enc,
    readInto, BR.read_bitsOf]
  rw [Nat.mod_eq_of_lt (show id < 2 ^ 8 from hid), Nat.mod_eq_of_lt (show len < 2 ^ 16 from hl), if_pos h]

/-- the full run, with anything following -/
theorem item_full {r : List Bool} {pos : Nat} {stop : Err} {later : List (List Bool × Err)} (p : Packet) (i : Item) (hw : i.WF) :
    ∃ q pos', Packet.next ⟨p, ⟨i.enc ++ r, pos, stop, later⟩⟩ = (.ok (), ⟨q, ⟨r, pos', stop, later⟩⟩) ∧
      next2 ⟨p, ⟨i.enc ++ r, pos, stop, later⟩⟩ = Packet.next ⟨p, ⟨i.enc ++ r, pos, stop, later⟩⟩ := by
  cases i with
  | media id h d =>
    obtain ⟨h1, h2, h3, h4, h5⟩ := hw
    refine ⟨_, _, next_packet p id h d h1 (hasHeader_of h2) h3 h4 h5, ?_⟩
    have e : (Item.media id h d).enc ++ r = encStart id (3 + h.dataLen + d.length) ++ ((encHdr h ++ bitsOfBytes d) ++ r) := by
      simp [Item.enc, encPacket]
    rw [e]
    exact next2_start p id _ h1 h5 (.inl (by omega))
  | padding d =>
    have h1 : d.length < 65536 := hw
    refine ⟨_, _, next_padding p d h1, ?_⟩
    have e : (Item.padding d).enc ++ r = encStart 0xbe d.length ++ (bitsOfBytes d ++ r) := by
      simp [Item.enc, encPadding]
    rw [e]
    exact next2_start p 0xbe _ (by decide) h1 (.inr rfl)

/-! ### C92 -/

/-- **C92** (partial: the error may be a missing marker, see `C92_marker_false`).  On every proper prefix of a packet
`Next` fails; the error is that of the end of the input or `ErrMarkerNotFound`, and `io.EOF` on the empty input. -/
theorem C92_truncated_partial (p : Packet) (pos : Nat) (i : Item) (hw : i.WF) (a t : List Bool) (h : i.enc = a ++ t)
    (ht : t ≠ []) :
    ∃ e s', Packet.next ⟨p, ⟨a, pos, .eof, []⟩⟩ = (.err e, s') ∧
      (e = .eof ∨ e = .unexpectedEOF ∨ e = .markerNotFound) ∧ (a = [] → e = .eof) := by
  by_cases ha : a = []
  · subst ha
    exact ⟨.eof, _, next_end p pos .eof, .inl rfl, fun _ => rfl⟩
  obtain ⟨q, pos', f1, f2⟩ := item_full (r := []) (pos := pos) (stop := .eof) (later := []) p i hw
  rw [List.append_nil] at f1 f2
  obtain ⟨h1, h2⟩ := tr_next2 ⟨p, ⟨a, pos, .eof, []⟩⟩ t ⟨rfl, rfl⟩
  have e1 : HasBR.ext (⟨p, ⟨a, pos, .eof, []⟩⟩ : St) t = ⟨p, ⟨i.enc, pos, .eof, []⟩⟩ := by
    rw [h]; rfl
  rw [e1, f2, f1] at h2
  cases hx : next2 ⟨p, ⟨a, pos, .eof, []⟩⟩ with
  | mk r s' =>
    rw [hx] at h2
    have hn := next2_or ⟨p, ⟨a, pos, .eof, []⟩⟩
    rw [hx] at hn
    cases r with
    | ok u =>
      simp only [Prod.mk.injEq, true_and] at h2
      have := congrArg (fun x : St => x.br.bits) h2
      simp only [HasBR.ext, BR.ext] at this
      have := congrArg List.length this
      simp only [List.length_nil, List.length_append] at this
      exact absurd (List.length_eq_zero_iff.mp (by omega)) ht
    | err e =>
      rcases hn with hn | hn
      · refine ⟨e, s', hn.symm, ?_, fun h => absurd h ha⟩
        rcases h2 with h2 | h2
        · rcases h2 with (h2 | h2) | h2
          · exact .inl h2
          · exact .inr (.inl h2)
          · exact .inr (.inr h2)
        · simp at h2
      · simp at hn
    | panic => simp at h2
    | hang => simp at h2

/-- **C92.**  Whatever the bytes are: with fewer than PES_packet_length bytes in the current unit after the packet start,
`Next` does not succeed. -/
theorem C92_never_accepted (s s' : St) (id len : Nat) (rest : List Bool) (hid : id < 256) (hlen : len < 65536)
    (hb : s.br.bits = encStart id len ++ rest) (h0 : len ≠ 0) (hh : id ∉ noHeaderIds ∨ id = 0xbe)
    (hr : rest.length < 8 * len) : Packet.next s ≠ (.ok (), s') := by
  intro hok
  have e0 : s = ⟨s.pkt, ⟨encStart id len ++ rest, s.br.pos, s.br.stop, s.br.later⟩⟩ := by
    rw [← hb]
  have hok' := hok
  rw [e0, next_start s.pkt id len hid hlen] at hok'
  obtain ⟨e1, e2, e3⟩ := body_inv hok'
  simp only at e1 e2
  obtain ⟨l, n, t, hl, hn⟩ := C24_consumed_mod s s' hok (by rw [e1]; exact hh) (by rw [e2]; exact h0)
  have hlen' := congrArg List.length t.bits
  rw [hb, List.length_append, List.length_append] at hlen'
  have : (encStart id len).length = 48 := by simp [encStart]
  rw [e2] at hn
  have : n < 2 ^ 32 := by omega
  rw [Nat.mod_eq_of_lt this] at hn
  omega

/-- The full claim of C92 (an error that tells the end of the input) is false: a packet that is cut off after its packet
start is reported to lack a marker. -/
theorem C92_marker_false (p : Packet) (pos id len : Nat) (hid : id < 256) (hlen : len < 65536) (hh : id ∉ noHeaderIds) :
    (Packet.next ⟨p, ⟨encStart id len, pos, .eof, []⟩⟩).1 = .err .markerNotFound := by
  have := next_start (r := []) (pos := pos) (stop := .eof) (later := []) p id len hid hlen
  rw [List.append_nil] at this
  rw [this]
  simp only [Packet.body, hasHeader_of hh, Go.ite_apply, ↓reduceIte]
  apply bind_fst_err
  rfl

theorem run_items_tail (r : List Bool) (stop : Err) (later : List (List Bool × Err)) : ∀ (l : List Item) (p : Packet) (pos : Nat),
    (∀ i ∈ l, i.WF) →
    ∃ ps p' pos', Run ⟨p, ⟨(l.map Item.enc).flatten ++ r, pos, stop, later⟩⟩ ps ⟨p', ⟨r, pos', stop, later⟩⟩ ∧
      ps.map Packet.payload = seen p.payload l ∧ ps.length = l.length
  | [], p, pos, _ => ⟨[], p, pos, .nil _, rfl, rfl⟩
  | .media id h d :: l, p, pos, hw => by
    obtain ⟨h1, h2, h3, h4, h5⟩ := hw _ (List.mem_cons_self ..)
    have hn := next_packet (r := (l.map Item.enc).flatten ++ r) (pos := pos) (stop := stop) (later := later)
      p id h d h1 (hasHeader_of h2) h3 h4 h5
    obtain ⟨ps, p', pos', hr, he, hl⟩ := run_items_tail r stop later l ⟨id, 3 + h.dataLen + d.length, some (viewHdr h), d⟩
      (pos + 8 * (9 + h.dataLen + d.length)) (fun i hi => hw i (List.mem_cons_of_mem _ hi))
    refine ⟨_, p', pos', .cons (s1 := ⟨⟨id, 3 + h.dataLen + d.length, some (viewHdr h), d⟩, _⟩) ?_ hr,
      by simp [seen, he], by simp [hl]⟩
    rw [← hn]
    simp [Item.enc]
  | .padding d :: l, p, pos, hw => by
    have h1 : d.length < 65536 := hw _ (List.mem_cons_self ..)
    have hn := next_padding (r := (l.map Item.enc).flatten ++ r) (pos := pos) (stop := stop) (later := later) p d h1
    obtain ⟨ps, p', pos', hr, he, hl⟩ := run_items_tail r stop later l { p with streamID := 0xbe, packetLength := d.length }
      (pos + 8 * (6 + d.length)) (fun i hi => hw i (List.mem_cons_of_mem _ hi))
    refine ⟨_, p', pos', .cons (s1 := ⟨{ p with streamID := 0xbe, packetLength := d.length }, _⟩) ?_ hr,
      by simp [seen, he], by simp [hl]⟩
    rw [← hn]
    simp [Item.enc]

/-- **C92** for the payload reader: of a stream cut off inside a packet exactly the payloads of the complete packets are
delivered, and then an error; nothing of the truncated packet. -/
theorem C92_reader_partial (l : List Item) (hw : ∀ i ∈ l, i.WF) (i : Item) (hi : i.WF) (a t : List Bool) (h : i.enc = a ++ t)
    (ht : t ≠ []) (ns : List Nat) (fuel : Nat) (hf : l.length < fuel) :
    ∃ e r', PR.reads fuel ns (PR.new (BR.ofBits ((l.map Item.enc).flatten ++ a))) =
      (.ok (TS.Spec.deliver (seen [] l).flatten e ns), r') ∧ (e = .eof ∨ e = .unexpectedEOF ∨ e = .markerNotFound) := by
  obtain ⟨ps, p', pos', hr, he, hl⟩ := run_items_tail a .eof [] l {} 0 hw
  obtain ⟨e, s', h1, h2, _⟩ := C92_truncated_partial p' pos' i hi a t h ht
  obtain ⟨r', h3⟩ := C26_every_source (BR.ofBits ((l.map Item.enc).flatten ++ a)) ps [] e
    (.last hr h1 (by rcases h2 with rfl | rfl | rfl <;> decide)) ns fuel
    (by simp only [total, List.map_nil, List.sum_nil]; omega)
  refine ⟨e, r', ?_, h2⟩
  rw [h3, List.map_nil, deliverParts_nil, payloads, he]

/-- a packet with a time stamp, cut off in its payload, after two complete packets -/
example : let i := Item.media 0xe0 exHdr [1, 2, 3]
    i.WF ∧ (∃ t, i.enc = i.enc.take 200 ++ t ∧ t ≠ []) ∧ (∀ j ∈ exItems.take 2, j.WF) ∧
      (seen [] (exItems.take 2)).flatten = [1, 2, 3] := by
  refine ⟨⟨by decide, by decide, exHdr_wf.1, exHdr_wf.2, by decide +kernel⟩, ⟨(Item.media 0xe0 exHdr [1, 2, 3]).enc.drop 200,
    (List.take_append_drop _ _).symm, by decide +kernel⟩, ?_, by decide +kernel⟩
  intro j hj
  simp only [exItems, List.take_succ_cons, List.take_zero, List.mem_cons, List.not_mem_nil, or_false] at hj
  rcases hj with rfl | rfl
  · show 2 < 65536; decide
  · exact ⟨by decide, by decide, exHdr_wf.1, exHdr_wf.2, by decide +kernel⟩

end Mpeg.PES
