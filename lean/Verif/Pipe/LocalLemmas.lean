/-
C124, packetized elementary streams and program streams.
-/
import Verif.Pipe.LocalTS
import Verif.PS.Total
set_option linter.all false
namespace Mpeg

theorem BR.kept_any (k : Nat) : BR.Kept (fun _ => True) (fun _ => True) k := ⟨fun _ _ => trivial⟩

namespace PES
open BR (Kept kept_any)

abbrev Any : BR → Prop := fun _ => True

theorem loc_marker {I J : BR → Prop} {k : Nat} (hk : Kept I J k) (v : Nat) : Loc SrcLens.self 0 I J (marker k v) := by
  intro s a s' hi h
  unfold marker at h
  cases hx : BR.read k s with
  | mk r b =>
    rw [hx] at h
    cases r with
    | ok x =>
      by_cases hv : x = v
      · simp only [if_pos hv, Prod.mk.injEq, true_and] at h
        subst h
        obtain ⟨h1, h2⟩ := BR.loc_read hk s x b hi hx
        exact ⟨h1, h2.lift (S := SrcLens.self) fun x' y hx' => by
          show marker k v x' = (.ok a, y)
          simp only [marker, hx', if_pos hv]⟩
      · simp [if_neg hv] at h
    | err e => simp at h
    | panic => simp at h
    | hang => simp at h
theorem loc_stamp (m : Nat) : Loc SrcLens.self 0 Any Any (readTimeStamp m) :=
  (loc_marker (kept_any _) _).bind fun _ => (BR.loc_read (kept_any _)).bind fun _ => (loc_marker (kept_any _) _).bind fun _ =>
    (BR.loc_read (kept_any _)).bind fun _ => (loc_marker (kept_any _) _).bind fun _ => (BR.loc_read (kept_any _)).bind fun _ =>
    (loc_marker (kept_any _) _).bind fun _ => Loc.pure _
theorem loc_stuffing : ∀ n, Loc SrcLens.self 0 Any Any (readStuffing n)
  | 0 => Loc.pure _
  | n + 1 => (BR.loc_read (kept_any _)).bind fun _ => Loc.check.bind fun _ => loc_stuffing n
theorem loc_exact (n : Nat) : Loc SrcLens.self 0 Any Any (readExact n) := by
  intro s a s' hi h
  unfold readExact at h
  obtain ⟨⟨bs, e⟩, s1, h1, h2⟩ := Go.bind_eq_ok h
  cases e with
  | some e => simp at h2
  | none =>
    simp only [Go.pure_apply, Prod.mk.injEq, Res.ok.injEq] at h2
    obtain ⟨rfl, rfl⟩ := h2
    obtain ⟨hj, e⟩ := BR.readFull_loc (kept_any _) hi h1
    refine ⟨hj, e.lift (S := SrcLens.self) fun x y hx => ?_⟩
    show readExact n x = (.ok bs, y)
    unfold readExact
    rw [Go.bind_ok hx]; rfl
theorem loc_pstd : Loc SrcLens.self 0 Any Any readPStd :=
  (loc_marker (kept_any _) _).bind fun _ => (BR.loc_read (kept_any _)).bind fun _ => (BR.loc_read (kept_any _)).bind fun _ => Loc.pure _
theorem loc_one : Loc SrcLens.self 0 Any Any BR.read1 := BR.loc_read1 (kept_any _)
theorem loc_num (k : Nat) : Loc SrcLens.self 0 Any Any (BR.read k) := BR.loc_read (kept_any _)
theorem loc_extension : Loc SrcLens.self 0 Any Any readExtension :=
  loc_one.bind fun _ => loc_one.bind fun _ => loc_one.bind fun _ => loc_one.bind fun _ => (BR.loc_skip (kept_any _)).bind fun _ =>
    loc_one.bind fun _ => (Loc.opt (loc_exact _)).bind fun _ => (Loc.opt Loc.panic).bind fun _ => (Loc.opt Loc.panic).bind fun _ =>
    (Loc.opt (loc_pstd.map _)).bind fun _ => (Loc.opt Loc.panic).bind fun _ => Loc.pure _
theorem loc_stamps (flags : Nat) : Loc SrcLens.self 0 Any Any (readStamps flags) :=
  Loc.ite ((loc_stamp _).bind fun _ => Loc.pure _)
    (Loc.ite ((loc_stamp _).bind fun _ => (loc_stamp _).bind fun _ => Loc.pure _) (Loc.pure _))
theorem loc_fixed : Loc SrcLens.self 0 Any Any readFixed :=
  (loc_num _).bind fun _ => loc_one.bind fun _ => loc_one.bind fun _ => loc_one.bind fun _ => loc_one.bind fun _ => (loc_num _).bind fun _ =>
    loc_one.bind fun _ => loc_one.bind fun _ => loc_one.bind fun _ => loc_one.bind fun _ => loc_one.bind fun _ => loc_one.bind fun _ =>
    (loc_num _).bind fun _ => Loc.pure _
theorem loc_header : Loc SrcLens.self 0 Any Any readHeader :=
  (loc_marker (kept_any _) _).bind fun _ => loc_fixed.bind fun _ => (loc_stamps _).bind fun _ => (Loc.opt Loc.panic).bind fun _ =>
    (Loc.opt (loc_extension.map _)).bind fun _ => (loc_stuffing _).bind fun _ => Loc.pure _

/-- the start code prefix is looked at and then skipped -/
theorem loc_prefix : Loc SrcLens.self 0 Any Any prefix24 := by
  intro s a s' hi h
  unfold prefix24 at h
  obtain ⟨v, s1, h1, h2⟩ := Go.bind_eq_ok h
  obtain ⟨u, s2, h3, h4⟩ := Go.bind_eq_ok h2
  have hv : (v == startCodePrefix) = true ∧ s2 = s1 := by
    cases hb : v == startCodePrefix with
    | true => rw [hb] at h3; simp [Go.check] at h3; exact ⟨rfl, h3.symm⟩
    | false => rw [hb] at h3; simp [Go.check] at h3
  obtain ⟨hv, rfl⟩ := hv
  have hl : s2 = s ∧ 24 ≤ s.bits.length := by
    unfold BR.peek at h1
    split at h1
    · rename_i hl
      simp only [Prod.mk.injEq] at h1
      exact ⟨h1.2.symm, hl⟩
    · simp at h1
  obtain ⟨rfl, hl⟩ := hl
  have l1 := (BR.loc_peek (k := 24) (I := Any) s2 v s2 trivial h1).2
  have e : Go.ignoreErr (BR.skip 24) s2 = (.ok (), s2.adv 24) := by simp [Go.ignoreErr, BR.skip_ok hl]
  rw [e] at h4
  simp only [Prod.mk.injEq] at h4
  obtain ⟨_, rfl⟩ := h4
  refine ⟨trivial, ?_⟩
  have l2 := BR.local_ignore_skip (k := 24) hl
  refine l1.bind (f := fun v => do Go.check (v == startCodePrefix) .startCodePrefixNotFound; Go.ignoreErr (BR.skip 24)) ?_ (c := 24) (Nat.le_refl _) (by omega)
  show Local _ 0 (do Go.check (v == startCodePrefix) .startCodePrefixNotFound; Go.ignoreErr (BR.skip 24)) _ _ _
  rw [hv]
  exact l2

def St.src : SrcLens St := ⟨St.br, fun s b => { s with br := b }⟩

section
variable {I J : BR → Prop} {α : Type} {p : Nat}
theorem loc_lift {m : Go BR α} (hm : Loc SrcLens.self p I J m) : Loc St.src p I J (St.lift m) := by
  intro s a s' hi h
  unfold St.lift at h
  simp only [Prod.mk.injEq] at h
  obtain ⟨h1, rfl⟩ := h
  obtain ⟨h3, h4⟩ := hm s.br a (m s.br).2 hi (by rw [← h1])
  exact ⟨h3, Local.lift (S := St.src) (s := s) (s' := { s with br := (m s.br).2 }) h4 fun x y hx => by
    show St.lift m { s with br := x } = _
    simp only [St.lift, hx]
    rfl⟩
theorem loc_into {m : Go BR α} {z : α} {set : α → Packet → Packet} (hm : Loc SrcLens.self p I J m) : Loc St.src p I J (readInto m z set) := by
  intro s a s' hi h
  unfold readInto at h
  cases hx : m s.br with
  | mk r b =>
    rw [hx] at h
    cases r with
    | ok v =>
      simp only [Prod.mk.injEq, Res.ok.injEq] at h
      obtain ⟨rfl, rfl⟩ := h
      obtain ⟨h3, h4⟩ := hm s.br v b hi hx
      refine ⟨h3, Local.lift (S := St.src) (s := s) (s' := ⟨set v s.pkt, b⟩) h4 fun x y hx => ?_⟩
      show readInto m z set { s with br := x } = _
      simp only [readInto, hx]
      rfl
    | err e => simp at h
    | panic => simp at h
    | hang => simp at h
end

theorem loc_headerInto : Loc St.src 0 Any Any headerInto := by
  intro s a s' hi h
  unfold headerInto at h
  cases hx : readHeader s.br with
  | mk r b =>
    rw [hx] at h
    cases r with
    | ok v =>
      obtain ⟨hd, n⟩ := v
      simp only [Prod.mk.injEq, Res.ok.injEq] at h
      obtain ⟨rfl, rfl⟩ := h
      obtain ⟨h3, h4⟩ := loc_header s.br _ b hi hx
      refine ⟨h3, Local.lift (S := St.src) (s := s) (s' := ⟨_, b⟩) h4 fun x y hx => ?_⟩
      show headerInto { s with br := x } = _
      simp only [headerInto, hx]
      rfl
    | err e => simp at h
    | panic => simp at h
    | hang => simp at h
theorem loc_bounded (n : Nat) : Loc St.src 0 Any Any (boundedPayload n) := by
  intro s a s' hi h
  unfold boundedPayload at h
  cases hx : BR.readFull n s.br with
  | mk r b =>
    rw [hx] at h
    cases r with
    | ok v =>
      obtain ⟨bs, e⟩ := v
      cases e with
      | some e => simp at h
      | none =>
        simp only [Prod.mk.injEq, Res.ok.injEq, true_and] at h
        subst h
        obtain ⟨h3, h4⟩ := BR.readFull_loc (kept_any _) hi hx
        refine ⟨h3, Local.lift (S := St.src) (s := s) (s' := ⟨_, b⟩) h4 fun x y hx => ?_⟩
        show boundedPayload n { s with br := x } = _
        simp only [boundedPayload, hx]
        rfl
    | err e => simp at h
    | panic => simp at h
    | hang => simp at h

/-- the packet says where it ends -/
def Bounded (id len : Nat) : Bool := !hasPESHeader id || decide (0 < len)

theorem loc_body {id len : Nat} (hb : Bounded id len = true) : Loc St.src 0 Any Any (Packet.body id len) := by
  unfold Packet.body
  by_cases hh : hasPESHeader id
  · rw [if_pos hh]
    have hl : len > 0 := by
      simp [Bounded, hh] at hb
      exact hb
    refine loc_headerInto.bind fun n => ?_
    rw [if_pos hl]
    exact loc_bounded _
  · rw [if_neg hh]
    exact Loc.ite ((loc_lift (loc_exact _)).bind fun _ => Loc.pure _) (Loc.pure _)

/-- the two fields are kept -/
def Keeps (s s' : St) : Prop := s'.pkt.streamID = s.pkt.streamID ∧ s'.pkt.packetLength = s.pkt.packetLength
theorem header_keeps {s s' : St} {n : Nat} (h : headerInto s = (.ok n, s')) : Keeps s s' := by
  unfold headerInto at h
  cases hx : readHeader s.br with
  | mk r b =>
    rw [hx] at h
    cases r with
    | ok v => simp only [Prod.mk.injEq] at h; rw [← h.2]; exact ⟨rfl, rfl⟩
    | err e => simp at h
    | panic => simp at h
    | hang => simp at h
theorem bounded_keeps {n : Nat} {s s' : St} {u : Unit} (h2 : boundedPayload n s = (.ok u, s')) : Keeps s s' := by
  unfold boundedPayload at h2
  cases hx : BR.readFull n s.br with
  | mk r b =>
    rw [hx] at h2
    cases r with
    | ok v =>
      obtain ⟨bs, e⟩ := v
      cases e with
      | some e => simp at h2
      | none => simp only [Prod.mk.injEq] at h2; rw [← h2.2]; exact ⟨rfl, rfl⟩
    | err e => simp at h2
    | panic => simp at h2
    | hang => simp at h2
theorem unbounded_keeps {s s' : St} {u : Unit} (h2 : unboundedPayload s = (.ok u, s')) : Keeps s s' := by
  unfold unboundedPayload at h2
  cases hx : BR.readAll s.br with
  | mk r b =>
    rw [hx] at h2
    cases r with
    | ok v =>
      obtain ⟨bs, e⟩ := v
      cases e with
      | some e => cases e <;> first | (simp at h2; done) | (simp only [Prod.mk.injEq] at h2; rw [← h2.2]; exact ⟨rfl, rfl⟩)
      | none => simp only [Prod.mk.injEq] at h2; rw [← h2.2]; exact ⟨rfl, rfl⟩
    | err e => simp at h2
    | panic => simp at h2
    | hang => simp at h2
theorem body_keeps {id len : Nat} {s s' : St} {u : Unit} (h : Packet.body id len s = (.ok u, s')) : Keeps s s' := by
  unfold Packet.body at h
  split at h
  · obtain ⟨n, s1, h1, h2⟩ := Go.bind_eq_ok h
    have e1 := header_keeps h1
    have e2 : Keeps s1 s' := by
      split at h2
      · exact bounded_keeps h2
      · exact unbounded_keeps h2
    exact ⟨e2.1.trans e1.1, e2.2.trans e1.2⟩
  · split at h
    · obtain ⟨bs, s1, h1, h2⟩ := Go.bind_eq_ok h
      simp only [Go.pure_apply, Prod.mk.injEq] at h2
      rw [← h2.2]
      unfold St.lift at h1
      simp only [Prod.mk.injEq] at h1
      rw [← h1.2]
      exact ⟨rfl, rfl⟩
    · simp only [Go.pure_apply, Prod.mk.injEq] at h
      rw [← h.2]
      exact ⟨rfl, rfl⟩
theorem readInto_ok {α : Type} {m : Go BR α} {z : α} {set : α → Packet → Packet} {s s' : St} {a : α} (h : readInto m z set s = (.ok a, s')) :
    s'.pkt = set a s.pkt := by
  unfold readInto at h
  cases hx : m s.br with
  | mk r b =>
    rw [hx] at h
    cases r with
    | ok v =>
      simp only [Prod.mk.injEq, Res.ok.injEq] at h
      obtain ⟨rfl, rfl⟩ := h
      rfl
    | err e => simp at h
    | panic => simp at h
    | hang => simp at h

theorem next_local {s s' : St} {u : Unit} (h : Packet.next s = (.ok u, s')) (hb : Bounded s'.pkt.streamID s'.pkt.packetLength = true) :
    Local St.src 0 Packet.next s u s' := by
  unfold Packet.next at h
  obtain ⟨_, s1, h1, h2⟩ := Go.bind_eq_ok h
  obtain ⟨id, s2, h3, h4⟩ := Go.bind_eq_ok h2
  obtain ⟨len, s3, h5, h6⟩ := Go.bind_eq_ok h4
  have e := body_keeps h6
  have e1 : s3.pkt.streamID = id := by rw [readInto_ok h5]; simp [readInto_ok h3]
  have e2 : s3.pkt.packetLength = len := by rw [readInto_ok h5]
  rw [e.1, e.2, e1, e2] at hb
  have l1 := ((loc_lift loc_prefix) s _ s1 trivial h1).2
  have l2 := ((loc_into (loc_num 8)) s1 id s2 trivial h3).2
  have l3 := ((loc_into (loc_num 16)) s2 len s3 trivial h5).2
  have l4 := (loc_body hb s3 u s' trivial h6).2
  have l34 := l3.bind (f := fun len => Packet.body id len) l4 (c := 0) l4.pos (by omega)
  have l24 := l2.bind (f := fun id => readInto (BR.read 16) 0 (fun v p => { p with packetLength := v }) >>= fun len => Packet.body id len) l34 (c := 0) l34.pos (by omega)
  exact l1.bind (f := fun _ => readInto (BR.read 8) 0 (fun v p => { p with streamID := v }) >>= fun id =>
    readInto (BR.read 16) 0 (fun v p => { p with packetLength := v }) >>= fun len => Packet.body id len) l24 (c := 0) l24.pos (by omega)

/-- a packet has six bytes at least -/
theorem next_pos {s s' : St} {u : Unit} (h : Packet.next s = (.ok u, s')) (hb : Bounded s'.pkt.streamID s'.pkt.packetLength = true) :
    s.br.pos + 48 ≤ s'.br.pos := by
  have key : ∀ {s s' : BR} {u : Unit}, prefix24 s = (.ok u, s') → s'.pos = s.pos + 24 := by
    intro s s' u h
    unfold prefix24 at h
    obtain ⟨v, s1, h1, h2⟩ := Go.bind_eq_ok h
    obtain ⟨_, s2, h3, h4⟩ := Go.bind_eq_ok h2
    have : s2 = s1 := by
      cases hb : v == startCodePrefix with
      | true => rw [hb] at h3; simp [Go.check] at h3; exact h3.symm
      | false => rw [hb] at h3; simp [Go.check] at h3
    subst this
    unfold BR.peek at h1
    split at h1
    · rename_i hl
      simp only [Prod.mk.injEq] at h1
      obtain ⟨_, rfl⟩ := h1
      have e : Go.ignoreErr (BR.skip 24) s = (.ok (), s.adv 24) := by simp [Go.ignoreErr, BR.skip_ok hl]
      rw [e] at h4
      simp only [Prod.mk.injEq] at h4
      rw [← h4.2]; rfl
    · simp at h1
  have rd : ∀ {k : Nat} {set : Nat → Packet → Packet} {s s' : St} {a : Nat}, readInto (BR.read k) 0 set s = (.ok a, s') → s'.br.pos = s.br.pos + k := by
    intro k set s s' a h
    unfold readInto at h
    by_cases hl : k ≤ s.br.bits.length
    · rw [BR.read_ok hl] at h
      simp only [Prod.mk.injEq] at h
      rw [← h.2]; rfl
    · rw [BR.read_short (by omega)] at h
      simp at h
  have hn := next_local h hb
  unfold Packet.next at h
  obtain ⟨_, s1, h1, h2⟩ := Go.bind_eq_ok h
  obtain ⟨id, s2, h3, h4⟩ := Go.bind_eq_ok h2
  obtain ⟨len, s3, h5, h6⟩ := Go.bind_eq_ok h4
  have e := body_keeps h6
  have e1 : s3.pkt.streamID = id := by rw [readInto_ok h5]; simp [readInto_ok h3]
  have e2 : s3.pkt.packetLength = len := by rw [readInto_ok h5]
  rw [e.1, e.2, e1, e2] at hb
  have l4 : s3.br.pos ≤ s'.br.pos := (loc_body hb s3 u s' trivial h6).2.pos
  have p1 : s1.br.pos = s.br.pos + 24 := by
    unfold St.lift at h1
    simp only [Prod.mk.injEq] at h1
    obtain ⟨h1, rfl⟩ := h1
    exact key (u := ()) (by rw [← h1])
  have := rd h3
  have := rd h5
  omega

end PES
end Mpeg
