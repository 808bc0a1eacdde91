/-
C132: any number of damaged pictures.
-/
import Verif.Video.RoundsLemmas
namespace Mpeg.Video
open Spec

variable {stop : Err}

theorem show_pairs {W H : Nat} {fs : List Frame} {imgs : List Image} (h : AllShow W H fs imgs) : Pairwise2 (Shows W H) fs imgs := by
  induction h with
  | nil => exact .nil
  | cons h _ ih => exact .cons h ih

/-- One round: pictures, a damaged picture, `AlignTo`. -/
theorem round {W H fuel k pos : Nat} {σ : Option Ctx} {c : Coded} {y : Ctx} {bad more u : List Bool} {imgs : List Image} {s : VS}
    (hstop : stop ≠ .eos) (hB : BadPicture W H fuel stop σ pos c y bad more) (ha : pos % 8 = 0) (hu : more = bitsOf 32 0x1B8 ++ u)
    (hr : Reach W H fuel k s imgs σ ⟨bad ++ more, pos, stop, []⟩) :
    ∃ fs r t v, Play fuel k s fs r t ∧ ((∃ e, r = .err e ∧ e ≠ .eos) ∨ r = .panic) ∧ VS.lift (alignTo 0x1B8) t = (.ok (), v) ∧
      Pairwise2 (Shows W H) fs imgs ∧ At W H y v ∧ v.fs.tryGet v.frameCounter = none ∧
      v.br = ⟨more, pos + bad.length, stop, []⟩ ∧ (pos + bad.length) % 8 = 0 := by
  obtain ⟨frames, t, t', k', a1, a2, a3, a4, a5, a6, a7⟩ := hr
  obtain ⟨r, w, b1, b2, b3, b4, skip, b5, b6, b7, b8, b9⟩ := bad_fails hstop hB ha a5 a6 a7
  have hwh := hB.whole
  have h8 : skip.length % 8 = 0 := by
    have : (w.br.pos + padding w.br.pos) % 8 = 0 := by unfold padding; omega
    omega
  have hal := realign b5 b6 h8 hu b9
  rw [b7, b8] at hal
  refine ⟨frames, r, w, _, nexts_play a1 (by rw [a3, b1 k' a4]) ?_, b2, hal, show_pairs a2, at_lift b3 rfl rfl rfl, b4, rfl, by omega⟩
  rintro f rfl
  rcases b2 with ⟨e, h, _⟩ | h <;> cases h

/-- **C132**, any state (partial): a decoder that holds the headers `x` in force and has nothing left to display, at the start of
a group of pictures of a stream in which any number of pictures are damaged.  The application that calls `Next` until it
fails, then `AlignTo` with the group start code, and so on, receives between the failures exactly the pictures before the
damaged ones: see C132_partial. -/
theorem C132_seek_partial {W H fuel k pos : Nat} {x : Ctx} {bits rest : List Bool} {l : List (List Image)} (hk : 2 ≤ k)
    (hstop : stop ≠ .eos) (h : Received W H fuel stop x pos bits l rest) (ha : pos % 8 = 0) :
    ∀ s : VS, At W H x s → s.fs.tryGet s.frameCounter = none → s.br = ⟨bits, pos, stop, []⟩ →
      ∃ fl t, Viewing fuel k s fl t ∧ Pairwise2 (Pairwise2 (Shows W H)) fl l ∧ t.br.bits = rest := by
  induction h with
  | @last x pos base prev gs bits rest imgs hent h hf =>
    intro s hat hw hb
    rw [show (0x1B7 : Nat) = 0x100 + 0xB7 from rfl, code32_bits (by decide), List.append_assoc] at hb
    obtain ⟨frames, t, f1, f2, base', z, pf', P, f3, f4, _⟩ := closed_next (n := 0xB7) (k := k) hk (by decide) (by decide) hent h
      hat hw ha hf hb
    obtain ⟨e1, _⟩ := end_next (fuel := fuel) (k := k) (by omega) f3 f4
    exact ⟨[frames], _, .last (nexts_play f1 e1 fun f h => by cases h), .cons (show_pairs f2) .nil, rfl⟩
  | @bad x y pos base prev gs c bits bad more rest imgs l hent h hf hB hR ih =>
    intro s hat hw hb
    obtain ⟨hdr, n, data, hbits, hp, _⟩ := hB.code
    obtain ⟨m, v, hm, hms, hv⟩ := headers_start hp
    obtain ⟨u, hu⟩ := received_starts hR
    obtain ⟨r1, r2⟩ := upTo_closed (stop := stop) (later := []) (n := m) (rest := v ++ (prefix1 ++ (bitsOf 8 n ++ (data ++ more))))
      (k := k) hk hm hms (hent.imp id fun h => h.1) h hat hw ha hf (by
        rw [hb, hbits, hv]; simp only [List.append_assoc])
    have e : prefix1 ++ (bitsOf 8 m ++ (v ++ (prefix1 ++ (bitsOf 8 n ++ (data ++ more))))) = bad ++ more := by
      rw [hbits, hv]; simp only [List.append_assoc]
    rw [e] at r1
    obtain ⟨fs, r, t, w, p1, p2, p3, p4, p5, p6, p7, p8⟩ := round hstop hB r2 hu r1
    obtain ⟨fl, t', q1, q2, q3⟩ := ih p8 w p5 p6 p7
    exact ⟨fs :: fl, t', .again p1 p2 p3 q1, .cons p4 q2, q3⟩

/-- **C132** (partial): however many pictures of a stream are damaged, an application that calls `Next` until it fails, then
`AlignTo` with the group start code, then `Next` again, and so on, receives all pictures that are displayed before a damaged
picture without waiting for it, from every group of pictures that is entered after a failure, and then the end of the
sequence: from a new decoder, `imgs1` before the first damaged picture, `l` between and after the others.  The damaged
pictures may be reference pictures or B pictures anywhere in their groups.

Partial: the streams of C75; the data of a damaged picture violate the syntax, and the failing call does not read on into
the next group of pictures (`C128_cut_false`); the groups of pictures at which decoding is resumed are closed
(`C87_leading_false`); the pictures behind a damaged one are lost up to there. -/
theorem C132_partial {W H lead fuel k : Nat} {gs1 : List CGroup} {c : Coded} {y : Ctx} {bits1 bad more rest : List Bool}
    {imgs1 : List Image} {l : List (List Image)} (hk : 2 ≤ k) (hstop : stop ≠ .eos) (hgs : gs1 ≠ [])
    (h1 : UpTo W H 0 none none (8 * lead) gs1 bits1 imgs1) (hf : bits1.length < fuel)
    (hB : BadPicture W H fuel stop (inForce none gs1) (8 * lead + bits1.length) c y bad more)
    (hR : Received W H fuel stop y (8 * lead + bits1.length + bad.length) more l rest) :
    ∃ fl t, Viewing fuel k (VS.new ⟨zeros (8 * lead) ++ (bits1 ++ (bad ++ more)), 0, stop, []⟩) fl t ∧
      Pairwise2 (Pairwise2 (Shows W H)) fl (imgs1 :: l) ∧ t.br.bits = rest := by
  have hN : Between W H 0 none none none (VS.new ⟨zeros (8 * lead) ++ (bits1 ++ (bad ++ more)), 0, stop, []⟩) :=
    ⟨rfl, ⟨rfl, fun r h => (by cases h), fun r h => (by cases h)⟩, rfl, .inl ⟨rfl, rfl⟩, fun Q hQ => (by cases hQ),
      fun _ => ⟨rfl, rfl⟩⟩
  obtain ⟨hdr, n, data, hbits, hp, _⟩ := hB.code
  obtain ⟨m, v, hm, hms, hv⟩ := headers_start hp
  have e : prefix1 ++ (bitsOf 8 m ++ (v ++ (prefix1 ++ (bitsOf 8 n ++ (data ++ more))))) = bad ++ more := by
    rw [hbits, hv]; simp only [List.append_assoc]
  obtain ⟨u, hu⟩ := received_starts hR
  obtain ⟨r1, r2⟩ := upTo_next (stop := stop) (later := []) (n := m) (rest := v ++ (prefix1 ++ (bitsOf 8 n ++ (data ++ more))))
    (k := k) hk hm hms h1 (lead := lead) hN (fun h => absurd rfl h) (fun h => absurd h hgs) (by omega) (Nat.le_refl _) hf (by
      rw [e, Nat.sub_self]; rfl)
  rw [e] at r1
  obtain ⟨fs, r, t, w, p1, p2, p3, p4, p5, p6, p7, p8⟩ := round hstop hB r2 hu r1
  obtain ⟨fl, t', q1, q2, q3⟩ := C132_seek_partial hk hstop hR p8 w p5 p6 p7
  exact ⟨fs :: fl, t', .again p1 p2 p3 q1, .cons p4 q2, q3⟩

theorem play_unique {fuel k : Nat} {s t : VS} {fs : List Frame} {r : Res Frame} (h : Play fuel k s fs r t) :
    ∀ {fs' : List Frame} {r' : Res Frame} {t' : VS}, Play fuel k s fs' r' t' → fs = fs' ∧ r = r' ∧ t = t' := by
  induction h with
  | stop h1 h2 =>
    intro fs' r' t' h'
    cases h' with
    | stop h3 _ => rw [h1] at h3; cases h3; exact ⟨rfl, rfl, rfl⟩
    | picture h3 _ => rw [h1] at h3; cases h3; exact absurd rfl (h2 _)
  | picture h1 _ ih =>
    intro fs' r' t' h'
    cases h' with
    | stop h3 h4 => rw [h1] at h3; cases h3; exact absurd rfl (h4 _)
    | picture h3 h4 =>
      rw [h1] at h3
      cases h3
      obtain ⟨rfl, rfl, rfl⟩ := ih h4
      exact ⟨rfl, rfl, rfl⟩

/-- **C132**: there is only one way in which such an application can go. -/
theorem C132_unique {fuel k : Nat} {s t : VS} {l : List (List Frame)} (h : Viewing fuel k s l t) :
    ∀ {l' : List (List Frame)} {t' : VS}, Viewing fuel k s l' t' → l = l' ∧ t = t' := by
  induction h with
  | last h1 =>
    intro l' t' h'
    cases h' with
    | last h2 => obtain ⟨rfl, _, rfl⟩ := play_unique h1 h2; exact ⟨rfl, rfl⟩
    | again h2 h3 _ _ =>
      obtain ⟨_, rfl, _⟩ := play_unique h1 h2
      rcases h3 with ⟨e, h, g⟩ | h
      · cases h; exact absurd rfl g
      · cases h
  | again h1 h3 h4 _ ih =>
    intro l' t' h'
    cases h' with
    | last h2 =>
      obtain ⟨_, rfl, _⟩ := play_unique h1 h2
      rcases h3 with ⟨e, h, g⟩ | h
      · cases h; exact absurd rfl g
      · cases h
    | again h2 _ h5 h6 =>
      obtain ⟨rfl, rfl, rfl⟩ := play_unique h1 h2
      rw [h4] at h5
      cases h5
      obtain ⟨rfl, rfl⟩ := ih h6
      exact ⟨rfl, rfl⟩

end Mpeg.Video
