/-
Property theorem C107 (inputs without one of the vital start codes; streams of ISO 11172-2).
-/
import Verif.Video.Mpeg1Lemmas
import Verif.Video.FaultProps
import Verif.Video.TermProps
import Verif.Video.StreamLemmas3
set_option linter.all false
namespace Mpeg.Video
open Spec
variable {stop : Err} {later : List (List Bool × Err)}

theorem idle_new {C : Nat → Prop} {br : BR} (h : Bare C br) : Idle C (VS.new br) := ⟨h, rfl, rfl, fun _ => rfl⟩

theorem outcomes_dud {C : Nat → Prop} (hC : Vital C) (fuel k : Nat) (f : Frame) :
    ∀ n s, Idle C s → .ok f ∉ outcomes fuel k n s
  | 0, _, _ => by simp [outcomes]
  | n + 1, s, hs => by
    have h1 := (dud_next fuel k hC).1 s hs
    have h2 := (dud_next fuel k hC).2 s hs
    unfold outcomes
    generalize VS.next fuel k s = x at h1 h2
    obtain ⟨r, s'⟩ := x
    cases r with
    | ok g => exact absurd rfl (h1 g s')
    | err e =>
      intro hm
      rcases List.mem_cons.1 hm with hm | hm
      · cases hm
      · exact outcomes_dud hC fuel k f n s' h2 hm
    | panic => intro hm; rcases List.mem_cons.1 hm with hm | hm <;> cases hm
    | hang => intro hm; rcases List.mem_cons.1 hm with hm | hm <;> cases hm

/-- **C107** What a picture needs: whatever the input and however often `Next` is called, if a picture is returned then the
input contains the four start codes of a sequence header, an extension, a picture and a slice (each at some bit of some
segment between two errors of the source). -/
theorem C107 {br : BR} {fuel k n : Nat} {f : Frame} (h : .ok f ∈ outcomes fuel k n (VS.new br)) :
    ∀ code ∈ [fun v => v = 0x1B3, fun v => v = 0x1B5, fun v => v = 0x100, fun v => 0x101 ≤ v ∧ v ≤ 0x1AF],
      ∃ g ∈ br.bits :: br.later.map (·.1), ∃ v, code v ∧ Occurs v g := by
  intro code hcode
  by_cases hx : ∃ g ∈ br.bits :: br.later.map (·.1), ∃ v, code v ∧ Occurs v g
  · exact hx
  have hb : Bare code br := fun g hg v hv ho => hx ⟨g, hg, v, hv, ho⟩
  refine absurd h (outcomes_dud ?_ fuel k f n _ (idle_new hb))
  simp only [List.mem_cons, List.not_mem_nil, or_false] at hcode
  rcases hcode with rfl | rfl | rfl | rfl
  · exact .inl rfl
  · exact .inr (.inl rfl)
  · exact .inr (.inr (.inl rfl))
  · exact .inr (.inr (.inr fun v h1 h2 => ⟨h1, h2⟩))

theorem userExt_has {l : List Bool} (h : UserThenExtension l) : Occurs 0x1B5 l := by
  induction h with
  | ext r => exact ⟨0, r, rfl⟩
  | user d r _ _ _ ih =>
    obtain ⟨j, t, hj⟩ := ih
    exact ⟨(encUser d).length + j, t, by rw [← List.drop_drop, List.drop_left, hj]⟩

theorem groupExt_has {l : List Bool} (h : GroupThenExtension l) : Occurs 0x1B5 l := by
  cases h with
  | mk t pad k r _ _ hr =>
    obtain ⟨j, t', hj⟩ := userExt_has hr
    refine ⟨(bitsOf 32 0x1B8 ++ (t ++ (pad ++ zeros (8 * k)))).length + j, t', ?_⟩
    rw [show bitsOf 32 0x1B8 ++ (t ++ (pad ++ (zeros (8 * k) ++ r))) = (bitsOf 32 0x1B8 ++ (t ++ (pad ++ zeros (8 * k)))) ++ r by
      simp only [List.append_assoc], ← List.drop_drop, List.drop_left, hj]

theorem mv_next (fuel k : Nat) : Go.Mv VS.br (VS.next fuel k) := by
  have hl : ∀ k, Go.Mv VS.br (nextLoop fuel k) := by
    intro k
    induction k with
    | zero => exact .hang
    | succ k ih =>
      unfold nextLoop
      refine .bind (mv_step fuel) fun f => .bind .get fun s => ?_
      cases s.ph with
      | none => exact .panic
      | some ph => exact .ite (.bind (.modify fun _ => rfl) fun _ => .pure _) ih
  intro s
  unfold VS.next
  split
  · exact .refl
  · exact hl k s

theorem outcomes_errors {C : Nat → Prop} (hC : C 0x1B5) (fuel k : Nat) : ∀ n s, Idle C s → s.br.size + 2 ≤ fuel →
    s.br.size < k → ∀ o ∈ outcomes fuel k n s, ∃ e, o = .err e
  | 0, _, _, _, _ => by simp [outcomes]
  | n + 1, s, hs, hf, hk => by
    have h1 := (dud_next fuel k (.inr (.inl hC))).1 s hs
    have h2 := (dud_next fuel k (.inr (.inl hC))).2 s hs
    have h3 := calm_next hC fuel k s hs
    have h4 := C77_partial s fuel k hf hk (fun g hg j ht => by
      obtain ⟨i, r, hi⟩ := groupExt_has ht
      exact hs.bare g hg _ hC ⟨j + i, r, by rw [← List.drop_drop, hi]⟩)
    have h5 : (VS.next fuel k s).2.br.size ≤ s.br.size := (mv_next fuel k s).size
    intro o
    unfold outcomes
    generalize VS.next fuel k s = x at h1 h2 h3 h4 h5
    obtain ⟨r, s'⟩ := x
    dsimp only at h2 h3 h4 h5
    cases r with
    | ok g => exact absurd rfl (h1 g s')
    | err e =>
      intro hm
      rcases List.mem_cons.1 hm with hm | hm
      · exact ⟨e, hm⟩
      · exact outcomes_errors hC fuel k n s' h2 (by omega) (by omega) o hm
    | panic => exact absurd rfl h3
    | hang => exact absurd rfl h4

/-- **C107** An input without the start code of an extension is harmless: every call of `Next` returns, and returns an
error.  No panic, no endless loop, no picture.  (`fuel` and `k` bound the rounds of loops, as in C77.) -/
theorem C107_harmless {br : BR} (h : ∀ g ∈ br.bits :: br.later.map (·.1), ¬ Occurs 0x1B5 g) {fuel k : Nat}
    (hf : br.size + 2 ≤ fuel) (hk : br.size < k) (n : Nat) : ∀ o ∈ outcomes fuel k n (VS.new br), ∃ e, o = .err e :=
  outcomes_errors (C := fun v => v = 0x1B5) rfl fuel k n _ (idle_new fun g hg v hv => by cases hv; exact h g hg) hf hk

theorem startCode_other {c d pos : Nat} {r : List Bool} (hc : c < 2 ^ 32) (hd : d ≠ c) :
    startCode d ⟨bitsOf 32 c ++ r, pos, stop, later⟩ = (.err .unexpectedStartCode, ⟨bitsOf 32 c ++ r, pos, stop, later⟩) := by
  have hp : BR.peek 32 (⟨bitsOf 32 c ++ r, pos, stop, later⟩ : BR) = (.ok c, ⟨bitsOf 32 c ++ r, pos, stop, later⟩) :=
    by rw [BR.peek_bitsOf, Nat.mod_eq_of_lt hc]
  have hcc : codeCheck 32 d ⟨bitsOf 32 c ++ r, pos, stop, later⟩ = (.ok false, ⟨bitsOf 32 c ++ r, pos, stop, later⟩) := by
    unfold codeCheck
    rw [Go.bind_ok hp, show (c == d) = false by rw [beq_eq_false_iff_ne]; exact fun h => hd h.symm]
    rfl
  show (codeCheck 32 d >>= _) _ = _
  rw [Go.bind_ok hcc]
  rfl

/-- the group of pictures header -/
theorem mpeg1_group {fuel ps c : Nat} {b2 b3 u3 rest : List Bool} (hfu : 0 < fuel) {g : GOP} (hg : g.WF) {s1 : VS}
    (p2 : Stuffed (encGOP g) ps b2) (hu3 : b3 = prefix1 ++ (bitsOf 8 0 ++ u3))
    (hpk : VS.lift (BR.peek 32) s1 = (.ok groupStartCode, s1))
    (hb1 : s1.br = ⟨b2 ++ (b3 ++ (bitsOf 32 (0x100 + c) ++ rest)), ps, stop, later⟩) :
    groupHeader fuel s1 = (.ok (), { s1 with
      br := ⟨prefix1 ++ (bitsOf 8 0 ++ (u3 ++ (bitsOf 32 (0x100 + c) ++ rest))), ps + b2.length, stop, later⟩
      gop := some ⟨timeOf g, g.closed, g.broken⟩, fs := s1.fs.markGOP, frameCounter := 0 }) := by
  obtain ⟨t, ht1, ht2, ht3, ht4⟩ := stuffed_tail p2 (bitsOf 8 0 ++ (u3 ++ (bitsOf 32 (0x100 + c) ++ rest)))
  have e2 : VS.lift readGOPHeader s1 = (.ok ⟨timeOf g, g.closed, g.broken⟩,
      { s1 with br := ⟨prefix1 ++ (bitsOf 8 0 ++ (u3 ++ (bitsOf 32 (0x100 + c) ++ rest))), ps + b2.length, stop, later⟩ }) := by
    refine lift_ok ?_
    rw [hb1, hu3]
    simp only [List.append_assoc]
    rw [ht1, readGOPHeader_enc g hg t ht2, ht3]
  obtain ⟨s2, hs2⟩ : ∃ s2, s2 = { s1 with
    br := ⟨prefix1 ++ (bitsOf 8 0 ++ (u3 ++ (bitsOf 32 (0x100 + c) ++ rest))), ps + b2.length, stop, later⟩
    gop := some ⟨timeOf g, g.closed, g.broken⟩, fs := s1.fs.markGOP, frameCounter := 0 } := ⟨_, rfl⟩
  have hpk2 : VS.lift (BR.peek 32) s2 = (.ok (0x100 + 0), s2) :=
    peek_at (c := 0) (by decide) (t := u3 ++ (bitsOf 32 (0x100 + c) ++ rest)) (pos := ps + b2.length) (by rw [hs2])
  have e3 : groupHeader fuel s1 = (.ok (), s2) := by
    unfold groupHeader
    rw [Go.bind_ok hpk, beq_self_eq_true, Go.opt_true, Go.bind_ok e2, Go.bind_ok (Go.modify_apply _ _)]
    obtain ⟨fu, rfl⟩ : ∃ m, fuel = m + 1 := ⟨fuel - 1, by omega⟩
    unfold extensionAndUserData
    show (VS.lift (BR.peek 32) >>= _) ({ s1 with
      br := ⟨prefix1 ++ (bitsOf 8 0 ++ (u3 ++ (bitsOf 32 (0x100 + c) ++ rest))), ps + b2.length, stop, later⟩
      gop := some ⟨timeOf g, g.closed, g.broken⟩, fs := s1.fs.markGOP, frameCounter := 0 }) = _
    rw [← hs2, Go.bind_ok hpk2, if_neg (by decide), if_neg (by decide)]
    rfl
  rw [e3, hs2]

/-- the picture header -/
theorem mpeg1_picture {ps c : Nat} {b3 u3 rest : List Bool} {p : Pic} (hp : p.WF) {s2 : VS} (hc : c < 256)
    (p3 : Stuffed (encPic p) ps b3) (hu3 : b3 = prefix1 ++ (bitsOf 8 0 ++ u3))
    (hs2 : s2.br = ⟨prefix1 ++ (bitsOf 8 0 ++ (u3 ++ (bitsOf 32 (0x100 + c) ++ rest))), ps, stop, later⟩) :
    pictureHeader s2 = (.ok (), { s2 with
      br := ⟨bitsOf 32 (0x100 + c) ++ rest, ps + b3.length, stop, later⟩, ph := some (viewPic p) }) := by
  obtain ⟨t', ht1', ht2', ht3', ht4'⟩ := stuffed_tail p3 (bitsOf 8 c ++ rest)
  have e4 : pictureHeader s2 = (.ok (), { s2 with
      br := ⟨bitsOf 32 (0x100 + c) ++ rest, ps + b3.length, stop, later⟩, ph := some (viewPic p) }) := by
    have hbr : s2.br = ⟨encPic p ++ t'.bits, ps, stop, later⟩ := by
      rw [← ht1', hs2, hu3, code32_bits hc]; simp only [List.append_assoc]
    rw [code32_bits hc, List.append_assoc, ← ht3' stop later]
    unfold pictureHeader
    exact store_ok (a := viewPic p) (b := ⟨t'.bits, ps + (encPic p).length, stop, later⟩)
      (by rw [hbr]; exact readPictureHeader_enc p hp) rfl (nextStartCode_tail t' ht2')
  exact e4

/-- another code where the picture coding extension should be -/
theorem mpeg1_extension {ps c : Nat} {rest : List Bool} {s3 : VS} (hc : c < 256) (c3 : ¬ c = 0xB5)
    (hb3 : s3.br = ⟨bitsOf 32 (0x100 + c) ++ rest, ps, stop, later⟩) :
    pictureCodingExtension s3 = (.err .unexpectedStartCode, { s3 with pce := none }) := by
  have hr : readPictureCodingExtension s3.br = (.err .unexpectedStartCode, s3.br) := by
    refine Go.bind_err ?_
    rw [hb3]
    exact startCode_other (by omega) (by show 0x1B5 ≠ 0x100 + c; omega)
  unfold pictureCodingExtension storeHeader VS.lift
  rw [hr]

theorem mpeg1_next {fuel k : Nat} (hk : 0 < k) {s1 s2 s3 s4 : VS} (hsh : s1.sh.isSome = true) (hf0 : s1.fs.f0 = none)
    (hf1 : s1.fs.f1 = none) (hpk : VS.lift (BR.peek 32) s1 = (.ok groupStartCode, s1)) (e3 : groupHeader fuel s1 = (.ok (), s2))
    (e4 : pictureHeader s2 = (.ok (), s3)) (e5 : pictureCodingExtension s3 = (.err .unexpectedStartCode, s4)) :
    VS.next fuel k s1 = (.err .unexpectedStartCode, s4) := by
  unfold VS.next
  have hq : s1.fs.tryGet s1.frameCounter = none := by
    rw [← Quiet, quiet_iff, hf0, hf1]; exact ⟨rfl, rfl⟩
  rw [hq]
  obtain ⟨k, rfl⟩ : ∃ j, k = j + 1 := ⟨k - 1, by omega⟩
  show nextLoop fuel (k + 1) s1 = _
  unfold nextLoop
  refine Go.bind_err ?_
  unfold step
  rw [if_pos hsh]
  unfold resume
  rw [Go.bind_ok hpk, if_pos (.inr rfl)]
  unfold moreFrames
  rw [Go.bind_ok e3, Go.bind_ok e4, Go.bind_err e5]

/-- **C107** A stream of ISO 11172-2: zero bytes, a sequence header, a group of pictures header, a picture header and then
the start code of a slice (or any other at which the decoder does not go on).  The first call of `Next` reports
`ErrUnsupportedVideoStream_ISO_IEC_11172_2`; the decoder does not stay in that state: all later calls report
`ErrUnexpectedStartCode`, whatever follows. -/
theorem C107_mpeg1 {fuel k : Nat} (hfu : 0 < fuel) (hk : 0 < k) {h : Seq} (hw : h.WF) {g : GOP} (hg : g.WF) {p : Pic} (hp : p.WF)
    {lead c : Nat} {bits rest : List Bool}
    (hb : Parts (8 * lead) [Stuffed (encSeq h), Stuffed (encGOP g), Stuffed (encPic p)] bits)
    (hc : c < 256) (hc' : c ∉ [0x00, 0xB3, 0xB5, 0xB7, 0xB8]) (n : Nat) :
    outcomes fuel k (n + 1) (VS.new ⟨zeros (8 * lead) ++ (bits ++ (bitsOf 32 (0x100 + c) ++ rest)), 0, stop, later⟩) =
      .err .unsupported11172 :: List.replicate n (.err .unexpectedStartCode) := by
  simp only [List.mem_cons, List.not_mem_nil, or_false, not_or] at hc'
  obtain ⟨c1, c2, c3, c4, c5⟩ := hc'
  obtain ⟨b1, bs1, rfl, p1, hb⟩ := parts_inv hb
  obtain ⟨b2, bs2, rfl, p2, hb⟩ := parts_inv hb
  obtain ⟨b3, bs3, rfl, p3, hb⟩ := parts_inv hb
  have := parts_nil hb
  subst this
  obtain ⟨r2, hr2⟩ := starts_gop g
  obtain ⟨u2, hu2⟩ := stuffed_starts (by decide) hr2 p2
  obtain ⟨r3, hr3⟩ := starts_pic p
  obtain ⟨u3, hu3⟩ := stuffed_starts (by decide) hr3 p3
  obtain ⟨pad, z, hpad, rfl⟩ := p1
  -- the first call
  obtain ⟨s1, e1, hs1, ha1, hsh, hf0, hf1⟩ := refused_state (stop := stop) (later := later) fuel hk hw (lead := lead)
    (stuffing := z) (c := 0xB8) (pad := pad) (rest := u2 ++ (b3 ++ (bitsOf 32 (0x100 + c) ++ rest)))
    (by rw [hpad]; unfold padding; omega) (by decide) (by decide)
  have hin : zeros (8 * lead) ++ (encSeq h ++ (pad ++ zeros (8 * z)) ++ (b2 ++ (b3 ++ [])) ++ (bitsOf 32 (0x100 + c) ++ rest)) =
      zeros (8 * lead) ++ (encSeq h ++ (pad ++ (zeros (8 * z) ++ (bitsOf 32 (0x100 + 0xB8) ++
        (u2 ++ (b3 ++ (bitsOf 32 (0x100 + c) ++ rest))))))) := by
    rw [code32_bits (c := 0xB8) (by decide), hu2]; simp only [List.append_assoc, List.nil_append]
  unfold outcomes
  rw [hin, e1]
  dsimp only
  congr 1
  cases n with
  | zero => rfl
  | succ n =>
  -- the second call
  generalize hps : 8 * lead + (encSeq h).length + pad.length + 8 * z = ps at hs1
  have hps1 : 8 * lead + (encSeq h ++ (pad ++ zeros (8 * z))).length = ps := by
    rw [← hps]; simp only [List.length_append, zeros, List.length_replicate]; omega
  rw [hps1] at p2 p3
  have hb1 : s1.br = ⟨b2 ++ (b3 ++ (bitsOf 32 (0x100 + c) ++ rest)), ps, stop, later⟩ := by
    rw [hs1, code32_bits (c := 0xB8) (by decide), hu2]; simp only [List.append_assoc]
  have hpk : VS.lift (BR.peek 32) s1 = (.ok groupStartCode, s1) := by
    refine peek_at (c := 0xB8) (pos := ps) (stop := stop) (later := later) (by decide)
      (t := u2 ++ (b3 ++ (bitsOf 32 (0x100 + c) ++ rest))) ?_
    rw [hb1, hu2]; simp only [List.append_assoc]
  have e3 := mpeg1_group hfu hg p2 hu3 hpk hb1
  generalize hs2 : ({ s1 with
      br := ⟨prefix1 ++ (bitsOf 8 0 ++ (u3 ++ (bitsOf 32 (0x100 + c) ++ rest))), ps + b2.length, stop, later⟩
      gop := some ⟨timeOf g, g.closed, g.broken⟩, fs := s1.fs.markGOP, frameCounter := 0 } : VS) = s2 at e3
  have e4 := mpeg1_picture hp (s2 := s2) hc p3 hu3 (by rw [← hs2])
  generalize hs3 : ({ s2 with
    br := ⟨bitsOf 32 (0x100 + c) ++ rest, ps + b2.length + b3.length, stop, later⟩, ph := some (viewPic p) } : VS) = s3 at e4
  have hb3 : s3.br = ⟨bitsOf 32 (0x100 + c) ++ rest, ps + b2.length + b3.length, stop, later⟩ := by rw [← hs3]
  have h2 := mpeg1_next (k := k) hk hsh hf0 hf1 hpk e3 e4 (mpeg1_extension hc c3 hb3)
  unfold outcomes
  rw [h2]
  dsimp only
  have hf : ({ s3 with pce := none } : VS).fs = s1.fs.markGOP := by rw [← hs3, ← hs2]
  have hlast := C93 fuel hk (s := { s3 with pce := none }) (by rw [← hs3, ← hs2]; exact hsh)
    (by
      refine (quiet_iff { s3 with pce := none }).2 ?_
      rw [hf]
      exact ⟨matches_marked _ _, matches_marked _ _⟩)
    (by show 32 ≤ s3.br.bits.length; rw [hb3]; simp)
    (by
      show natOfBits (s3.br.bits.take 32) ∉ goesOn
      rw [hb3]
      show natOfBits ((bitsOf 32 (0x100 + c) ++ rest).take 32) ∉ goesOn
      rw [List.take_append_of_le_length (by simp), List.take_of_length_le (by simp), natOfBits_bitsOf_of_lt (by omega)]
      simp only [goesOn, List.mem_cons, List.not_mem_nil, or_false, not_or]
      omega) n
  rw [hlast.1, List.replicate_succ]

/-! ### concrete cases -/

open ExStream

/-- an MPEG-1 stream: sequence header, group of pictures, picture, slice code and the bits of a slice -/
example : outcomes 1 1 4 (VS.new ⟨byte (encSeq (seqH 16)) ++ (byte (encGOP gopH) ++ (byte (encPic ⟨0, .other 1, 0, []⟩) ++
    (bitsOf 32 0x101 ++ zeros 40))), 0, .eof, []⟩) =
    [.err .unsupported11172, .err .unexpectedStartCode, .err .unexpectedStartCode, .err .unexpectedStartCode] := by
  have := C107_mpeg1 (stop := .eof) (later := []) (fuel := 1) (k := 1) (by decide) (by decide) (h := seqH 16) (by decide)
    (g := gopH) (by decide) (p := ⟨0, .other 1, 0, []⟩) (by decide) (lead := 0) (c := 1) (rest := zeros 40)
    (bits := byte (encSeq (seqH 16)) ++ (byte (encGOP gopH) ++ (byte (encPic ⟨0, .other 1, 0, []⟩) ++ [])))
    (.cons (stuffed_byte _ (by decide)) (.cons (stuffed_byte _ (by decide +kernel)) (.cons (stuffed_byte _ (by decide +kernel)) .nil)))
    (by decide) (by decide) 3
  rw [List.append_nil, List.append_assoc, List.append_assoc] at this
  exact this

theorem not_occurs {v : Nat} {g : List Bool} (h : ∀ j < g.length + 1, (g.drop j).take 32 ≠ bitsOf 32 v) : ¬ Occurs v g := by
  rintro ⟨j, r, hj⟩
  by_cases hl : j < g.length + 1
  · exact h j hl (by rw [hj, List.take_append_of_le_length (by simp), List.take_of_length_le (by simp)])
  · rw [List.drop_of_length_le (by omega)] at hj
    have := congrArg List.length hj
    simp only [List.length_nil, List.length_append, length_bitsOf] at this
    omega

/-- the same stream has no extension start code -/
example (n : Nat) : ∀ o ∈ outcomes 10000 10000 n (VS.new ⟨byte (encSeq (seqH 16)) ++ (byte (encGOP gopH) ++
    (byte (encPic ⟨0, .other 1, 0, []⟩) ++ (bitsOf 32 0x101 ++ zeros 40))), 0, .eof, []⟩), ∃ e, o = .err e :=
  C107_harmless (by
    intro g hg
    rw [List.map_nil, List.mem_singleton] at hg
    subst hg
    exact not_occurs (by decide +kernel)) (by decide +kernel) (by decide +kernel) n

/-- the picture of `ExStream.one`, and the four start codes that C107 finds -/
example : kinds (outcomes 1000 2 1 (VS.new (.ofBits one))) = [0] := by decide +kernel

end Mpeg.Video
