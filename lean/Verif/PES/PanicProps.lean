/-
C143: the inputs on which the PES parser panics.
-/
import Verif.PES.PanicSpec
import Verif.PES.Props
set_option linter.all false
namespace Mpeg.PES
open Spec
open Mpeg.TS (sub32)

theorem map_panic {α β : Type} {f : α → β} {m : Go BR α} {s s' : BR} (h : (f <$> m) s = (.panic, s')) : m s = (.panic, s') := by
  rw [map_eq_pure_bind] at h
  rcases bind_eq_panic h with h | ⟨_, _, _, h⟩
  · exact h
  · cases h

theorem extension_panics {w r : List Bool} {pos : Nat} {stop : Err} {later : List (List Bool × Err)} (hw : ExtPanic w) :
    ∃ b, readExtension ⟨w ++ r, pos, stop, later⟩ = (.panic, b) := by
  cases hw with
  | counter priv pack count pstd ext2 reserved h1 h2 =>
    simp only [readExtension, List.append_assoc, List.cons_append, List.nil_append,
      Go.bind_apply, BR.read1_cons, skip3, optPriv_enc priv h1]
    cases pack with
    | true => exact ⟨_, rfl⟩
    | false =>
      cases count with
      | true => exact ⟨_, rfl⟩
      | false => cases h2
  | second priv pstd reserved h1 h2 =>
    simp only [readExtension, List.append_assoc, List.cons_append, List.nil_append,
      Go.bind_apply, BR.read1_cons, skip3, optPriv_enc priv h1, Go.opt_false, Go.pure_apply]
    have := fun p => optPStd_enc (r := r) (pos := p) (stop := stop) (later := later) (pstd.map fun b => (1, b.1, b.2)) (by
      intro b hb
      cases pstd with
      | none => cases hb
      | some x => cases hb; exact ⟨(by decide : 1 < 4), h2 x rfl⟩) (by cases pstd <;> rfl)
    rw [Option.isSome_map] at this
    rw [this]
    exact ⟨_, rfl⟩

theorem extension_panic_inv {s s' : BR} (h : readExtension s = (.panic, s')) : ∃ w r, ExtPanic w ∧ s.bits = w ++ r := by
  unfold readExtension at h
  replace h := bind_eq_panic h
  rcases h with h | ⟨f0, s1, h1, h⟩
  · exact absurd (congrArg Prod.fst h) (BR.safe_read1 _).1
  replace h := bind_eq_panic h
  rcases h with h | ⟨f1, s2, h2, h⟩
  · exact absurd (congrArg Prod.fst h) (BR.safe_read1 _).1
  replace h := bind_eq_panic h
  rcases h with h | ⟨f2, s3, h3, h⟩
  · exact absurd (congrArg Prod.fst h) (BR.safe_read1 _).1
  replace h := bind_eq_panic h
  rcases h with h | ⟨f3, s4, h4, h⟩
  · exact absurd (congrArg Prod.fst h) (BR.safe_read1 _).1
  replace h := bind_eq_panic h
  rcases h with h | ⟨_, s5, h5, h⟩
  · exact absurd (congrArg Prod.fst h) (BR.safe_skip _ _).1
  replace h := bind_eq_panic h
  rcases h with h | ⟨f4, s6, h6, h⟩
  · exact absurd (congrArg Prod.fst h) (BR.safe_read1 _).1
  replace h := bind_eq_panic h
  rcases h with h | ⟨pv, s7, h7, h⟩
  · exfalso
    cases f0 with
    | false => cases h
    | true => exact absurd (congrArg Prod.fst h) (safe_readExact _ _).1
  obtain ⟨n, t5, _⟩ := skip_inv' h5
  obtain ⟨xp, rfl, rfl, p3, p4⟩ := optPriv_inv h7
  have ht := (BR.read1_inv h1).trans ((BR.read1_inv h2).trans ((BR.read1_inv h3).trans
    ((BR.read1_inv h4).trans (t5.trans ((BR.read1_inv h6).trans p4)))))
  replace h := bind_eq_panic h
  rcases h with h | ⟨_, s8, h8, h⟩
  · cases f1 with
    | false => cases h
    | true =>
      refine ⟨_, s7.bits, .counter xp true f2 f3 f4 n p3 rfl, ?_⟩
      rw [ht.bits]
      simp only [List.append_assoc, List.cons_append, List.nil_append]
  obtain ⟨rfl, rfl⟩ := opt_panic_inv h8
  replace h := bind_eq_panic h
  rcases h with h | ⟨_, s9, h9, h⟩
  · cases f2 with
    | false => cases h
    | true =>
      refine ⟨_, s8.bits, .counter xp false true f3 f4 n p3 rfl, ?_⟩
      rw [ht.bits]
      simp only [List.append_assoc, List.cons_append, List.nil_append]
  obtain ⟨rfl, rfl⟩ := opt_panic_inv h9
  replace h := bind_eq_panic h
  rcases h with h | ⟨ps, s10, h10, h⟩
  · exfalso
    cases f3 with
    | false => cases h
    | true => exact absurd (congrArg Prod.fst (map_panic h)) (safe_pstd _).1
  obtain ⟨xs, rfl, rfl, q3, q4, q5⟩ := optPStd_inv h10
  replace h := bind_eq_panic h
  rcases h with h | ⟨_, s11, h11, h⟩
  · cases f4 with
    | false => cases h
    | true =>
      have hm : (xs.map fun b => (b.2.1, b.2.2)).map (fun b => (1, b.1, b.2)) = xs := by
        rcases xs with _ | ⟨m, a, b⟩
        · rfl
        · have : m = 1 := by simpa using q4
          subst this
          rfl
      refine ⟨_, s10.bits, .second xp (xs.map fun b => (b.2.1, b.2.2)) n p3 ?_, ?_⟩
      · intro b hb
        cases xs with
        | none => cases hb
        | some x => cases hb; exact (q3 x rfl).2
      · rw [hm, Option.isSome_map, ht.bits, q5.bits]
        simp only [List.append_assoc, List.cons_append, List.nil_append]
  · cases h

/-- **C143**: `Next` panics exactly on the inputs that begin with one of the words `PanicWord`. -/
theorem C143_pes (s : St) : (Packet.next s).1 = .panic ↔ ∃ w r, PanicWord w ∧ s.br.bits = w ++ r := by
  constructor
  · intro h0
    have h : Packet.next s = (.panic, (Packet.next s).2) := Prod.ext h0 rfl
    generalize (Packet.next s).2 = s' at h
    clear h0
    unfold Packet.next at h
    rcases bind_eq_panic h with h | ⟨_, s1, h1, h⟩
    · exact absurd (congrArg Prod.fst h) (safe_lift safe_prefix s).1
    rcases bind_eq_panic h with h | ⟨id, s2, h2, h⟩
    · exact absurd (congrArg Prod.fst h) (safe_readInto (BR.safe_read _) _ _ s1).1
    rcases bind_eq_panic h with h | ⟨len, s3, h3, h⟩
    · exact absurd (congrArg Prod.fst h) (safe_readInto (BR.safe_read _) _ _ s2).1
    have t1 := prefix_inv (lift_inv h1).1
    obtain ⟨t2, l2⟩ := (read_inv' (readInto_inv h2).1)
    obtain ⟨t3, l3⟩ := (read_inv' (readInto_inv h3).1)
    unfold Packet.body at h
    by_cases hh : hasPESHeader id = true
    case neg =>
      rw [if_neg hh] at h
      split at h
      · rcases bind_eq_panic h with h | ⟨_, s4, _, h⟩
        · exact absurd (congrArg Prod.fst h) (safe_lift (safe_readExact _) _).1
        · cases h
      · cases h
    rw [if_pos hh] at h
    have hid : id ∉ noHeaderIds := by
      intro hc
      simp [noHeaderIds] at hc
      rcases hc with hc | hc | hc | hc | hc | hc | hc | hc <;> subst hc <;> exact absurd hh (by decide)
    rcases bind_eq_panic h with h | ⟨n, s4, h4, h⟩
    case inr =>
      split at h
      · exact absurd (congrArg Prod.fst h) (safe_bounded _ _).1
      · exact absurd (congrArg Prod.fst h) (safe_unbounded _).1
    have hp : ∃ b, readHeader s3.br = (.panic, b) := by
      unfold headerInto at h
      cases hm : readHeader s3.br with
      | mk r b =>
        rw [hm] at h
        cases r with
        | panic => exact ⟨b, rfl⟩
        | ok a => cases h
        | err e => cases h
        | hang => cases h
    obtain ⟨b, hp⟩ := hp
    unfold readHeader at hp
    rcases bind_eq_panic hp with hp | ⟨_, s5, h5, hp⟩
    · exact absurd (congrArg Prod.fst hp) (safe_marker _ _ s3.br).1
    rcases bind_eq_panic hp with hp | ⟨x, s6, h6, hp⟩
    · exact absurd (congrArg Prod.fst hp) (safe_fixed s5).1
    have t5 := (marker_inv h5).1
    obtain ⟨l4, _, _, _, _, _, t6⟩ := readFixed_inv h6
    rcases bind_eq_panic hp with hp | ⟨y, s7, h7, hp⟩
    · exact absurd (congrArg Prod.fst hp) (safe_stamps _ s6).1
    obtain ⟨t, w1, w2, w3, t7, rfl⟩ := readStamps_inv l4 h7
    have hb : s.br.bits = panicHead id len x.scramblingControl x.headerDataLength
        (x.priority, x.dataAlignmentIndicator, x.copyright, x.originalOrCopy) t
        (x.escrFlag, x.esRateFlag, x.dsmTrickModeFlag, x.additionalCopyInfoFlag, x.crcFlag, x.extensionFlag) ++ s7.bits := by
      rw [t1.bits, t2.bits, t3.bits, t5.bits, t6.bits, t7.bits]
      simp only [panicHead, encStart, w3, List.append_assoc]
    cases hu : x.unsupported with
    | true => exact ⟨_, s7.bits, .flag id len _ _ _ t _ _ _ _ _ _ l2 l3 hid w1 w2 hu, hb⟩
    | false =>
      simp only [Header.unsupported, Bool.or_eq_false_iff] at hu
      obtain ⟨⟨⟨⟨u1, u2⟩, u3⟩, u4⟩, u5⟩ := hu
      have hu : x.unsupported = false := by simp only [Header.unsupported, u1, u2, u3, u4, u5]; rfl
      rw [u1, u2, u3, u4, u5] at hb
      simp only [hu, Go.opt_false] at hp
      rcases bind_eq_panic hp with hp | ⟨_, s8, h8, hp⟩
      · cases hp
      cases h8
      rcases bind_eq_panic hp with hp | ⟨_, s9, h9, hp⟩
      · cases hx : x.extensionFlag with
        | false => rw [hx] at hp; cases hp
        | true =>
          rw [hx] at hp hb
          obtain ⟨w, r, hw, hr⟩ := extension_panic_inv (map_panic hp)
          exact ⟨_, r, .ext id len _ _ _ t w l2 l3 hid w1 w2 hw, by rw [hb, hr, List.append_assoc]⟩
      rcases bind_eq_panic hp with hp | ⟨_, s10, h10, hp⟩
      · exact absurd (congrArg Prod.fst hp) (safe_stuffing _ _).1
      · cases hp
  · rintro ⟨w, r, hw, hb⟩
    obtain ⟨p, ⟨bits, pos, stop, later⟩⟩ := s
    simp only at hb
    subst hb
    have hpan : ∀ (id len : Nat), id < 256 → len < 65536 → id ∉ noHeaderIds → ∀ w, (∃ b, readHeader ⟨w, pos + 48, stop, later⟩ = (.panic, b)) →
        (Packet.next ⟨p, ⟨encStart id len ++ w, pos, stop, later⟩⟩).1 = .panic := by
      intro id len hid hlen hh w ⟨b, hp⟩
      rw [next_start p id len hid hlen]
      unfold Packet.body
      rw [if_pos (hasHeader_of hh), Go.bind_apply]
      unfold headerInto
      rw [hp]
    have hfix : ∀ (sc hdl : Nat) (b0 b1 b2 b3 f0 f1 f2 f3 f4 f5 : Bool) (t : Stamps) (r : List Bool), t.WF → t.good = true → ∃ (x : Header) (q : Nat),
        x.unsupported = (f0 || f1 || f2 || f3 || f4) ∧ x.extensionFlag = f5 ∧
        readHeader ⟨bitsOf 2 2 ++ (bitsOf 2 sc ++ ([b0, b1, b2, b3] ++ (bitsOf 2 t.flags ++ ([f0, f1, f2, f3, f4, f5] ++
          (bitsOf 8 hdl ++ (encStamps t ++ r)))))), pos + 48, stop, later⟩ =
        (Go.opt x.unsupported () Go.panic >>= fun _ => Go.opt x.extensionFlag none (some <$> readExtension) >>= fun ext =>
          readStuffing (sub32 x.headerDataLength (t.len + (ext.map (·.2)).getD 0)) >>= fun _ =>
          pure ({ x with presentationTimeStamp := viewPts t, decodingTimeStamp := viewDts t, extension := ext.map (·.1) },
            (3 + (t.len + (ext.map (·.2)).getD 0) + sub32 x.headerDataLength (t.len + (ext.map (·.2)).getD 0)) % 2 ^ 32)) ⟨r, q, stop, later⟩ := by
      intro sc hdl b0 b1 b2 b3 f0 f1 f2 f3 f4 f5 t r ht hg
      have hmark := marker_bitsOf (r := bitsOf 2 sc ++ ([b0, b1, b2, b3] ++
          (bitsOf 2 t.flags ++ ([f0, f1, f2, f3, f4, f5] ++ (bitsOf 8 hdl ++ (encStamps t ++ r))))))
        (pos := pos + 48) (stop := stop) (later := later) 2 2 2 (by decide)
      rw [if_pos rfl] at hmark
      obtain ⟨x, hfix, hx1, hx2, hx3⟩ : ∃ x : Header, readFixed ⟨bitsOf 2 sc ++ ([b0, b1, b2, b3] ++
          (bitsOf 2 t.flags ++ ([f0, f1, f2, f3, f4, f5] ++ (bitsOf 8 hdl ++ (encStamps t ++ r))))),
          pos + 48 + 2, stop, later⟩ = (.ok x, ⟨encStamps t ++ r, pos + 48 + 2 + 22, stop, later⟩) ∧
          x.ptsDtsFlags = t.flags ∧ x.unsupported = (f0 || f1 || f2 || f3 || f4) ∧ x.extensionFlag = f5 := by
        simp only [readFixed, List.append_assoc, List.cons_append, List.nil_append,
          Go.bind_apply, BR.read1_cons, BR.read_bitsOf, Go.pure_apply]
        exact ⟨_, rfl, Nat.mod_eq_of_lt (flags_lt t), rfl, rfl⟩
      have hst := readStamps_enc (r := r) (pos := pos + 48 + 2 + 22) (stop := stop) (later := later) t ht hg
      refine ⟨x, pos + 48 + 2 + 22 + 8 * t.len, hx2, hx3, ?_⟩
      unfold readHeader
      rw [Go.bind_ok hmark, Go.bind_ok hfix, hx1, Go.bind_ok hst]
    cases hw with
    | flag id len sc hdl b t f0 f1 f2 f3 f4 f5 hid hlen hh ht hg hf =>
      obtain ⟨x, q, e1, e2, e3⟩ := hfix sc hdl b.1 b.2.1 b.2.2.1 b.2.2.2 f0 f1 f2 f3 f4 f5 t r ht hg
      have := hpan id len hid hlen hh _ (by
        rw [e3, e1, hf]
        exact ⟨_, rfl⟩)
      simpa only [panicHead, List.append_assoc] using this
    | ext id len sc hdl b t w hid hlen hh ht hg hx =>
      obtain ⟨x, q, e1, e2, e3⟩ := hfix sc hdl b.1 b.2.1 b.2.2.1 b.2.2.2 false false false false false true t (w ++ r) ht hg
      have := hpan id len hid hlen hh _ (by
        obtain ⟨y, hy⟩ := extension_panics (r := r) (pos := q) (stop := stop) (later := later) hx
        have hm : (some <$> readExtension) ⟨w ++ r, q, stop, later⟩ = (.panic, y) := by
          rw [map_eq_pure_bind]
          exact Go.bind_panic hy
        refine ⟨y, ?_⟩
        rw [e3, e1, e2]
        show ((some <$> readExtension) >>= _) _ = _
        exact Go.bind_panic hm)
      simpa only [panicHead, List.append_assoc] using this

/-- A video packet without time stamps that announces a CRC: a word of the first kind. -/
example : PanicWord (panicHead 0xE0 0 0 2 (false, false, false, false) .none (false, false, false, false, true, false)) :=
  .flag 0xE0 0 0 2 _ .none _ _ _ _ _ _ (by decide) (by decide) (by decide) trivial rfl rfl

/-- One whose extension has a P-STD buffer size and announces a second extension: a word of the second kind. -/
example : PanicWord (panicHead 0xE0 0 0 4 (false, false, false, false) .none (false, false, false, false, false, true) ++
    ([false, false, false, true] ++ bitsOf 3 7 ++ [true] ++ [] ++ encPStd (some (1, 1, 46)))) :=
  .ext 0xE0 0 0 4 _ .none _ (by decide) (by decide) (by decide) trivial rfl
    (.second none (some (1, 46)) 7 (by simp) (by simp))

/-- Both on bytes, and the second one without the second extension, and with a wrong marker in front of the P-STD buffer size,
where nothing panics. -/
example : (newPacket (BR.ofBytes [0, 0, 1, 0xE0, 0, 0, 0x80, 0x02, 2, 7])).1 = .panic ∧
    (newPacket (BR.ofBytes [0, 0, 1, 0xE0, 0, 0, 0x80, 0x01, 3, 0x1F, 0x60, 46, 7])).1 = .panic ∧
    (newPacket (BR.ofBytes [0, 0, 1, 0xE0, 0, 4, 0x80, 0x01, 3, 0x1E, 0x60, 46, 7])).1 ≠ .panic ∧
    (newPacket (BR.ofBytes [0, 0, 1, 0xE0, 0, 0, 0x80, 0x01, 3, 0x1F, 0xE0, 46, 7])).1 ≠ .panic := by
  decide +kernel

end Mpeg.PES
