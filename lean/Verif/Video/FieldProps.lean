/-
C102: frames coded as two field pictures.
-/
import Verif.Video.FieldLemmas3
import Verif.Video.StreamProps
namespace Mpeg.Video
open Spec

variable {stop : Err} {later : List (List Bool × Err)}

/-! ### order -/

/-- **C102** (order): in every stream whose frames are coded as one picture or as two field pictures, in any mixture, with
or without B frames and across any number of groups of pictures, consecutive calls of `Next` return the first picture of
every frame, in display order: the second field of a frame is decoded and dropped. -/
theorem C102_first {fuel k : Nat} {br : BR} {gs : List FGroup} {s' : VS} (hk : 4 ≤ k) (hl : FLegal 0 gs)
    (h : Run fuel (VS.new br) (gs.flatMap FGroup.coded) s') :
    ∃ t, nexts fuel k (gs.flatMap FGroup.firsts).length (VS.new br) = (.ok ((gs.flatMap FGroup.firsts).map (·.frame)), t) := by
  have hd : Past (VS.new br).fs (VS.new br).frameCounter := ⟨fun r h => (by cases h), fun r h => (by cases h)⟩
  obtain ⟨t, _, _, h1, _⟩ := fgroups_next (pend := none) hk h hd (fun q hq => by cases hq) hl
  exact ⟨t, h1⟩

/-- The data of an intra field picture without concealment vectors are decoded like those of a frame picture with
frame_pred_frame_dct = 1: the lines of the field become consecutive lines of a picture of the height of a frame. -/
theorem C102_as_frame {s : VS} {ph : PictureHeader} {x : PictureCodingExtension} (h3 : s.ph = some ph)
    (h4 : s.pce = some x) (hk : ph.pictureCodingType = 1) (hs : x.pictureStructure ≠ 3)
    (hc : x.concealmentMotionVectors = false) :
    (pictureData s).1 = (pictureData { s with pce := some { x with pictureStructure := 3, framePredFrameDCT := 1 } }).1 := by
  rw [pictureData_field h3 h4 hk hs hc]
  rfl

/-! ### streams of intra field pictures -/

theorem fieldParts_noSlice {c : Coded} {y : Ctx} {W H pos : Nat} {b : List Bool} (h : Parts pos (c.fieldParts y W H) b)
    (t : List Bool) : NoSlice (b ++ t) := by
  have h' : Parts pos (seqParts c ++ gopParts c ++ fieldPicParts c y W H) b := h
  unfold seqParts gopParts at h'
  cases hq : c.seq with
  | some q =>
    rw [hq] at h'
    obtain ⟨a, as, rfl, q1, _⟩ := parts_inv h'
    obtain ⟨r1, hr1⟩ := starts_seq q.hdr
    obtain ⟨u, hu⟩ := stuffed_starts (by decide) hr1 q1
    exact ⟨0xB3, u ++ (as ++ t), by decide, by decide, by rw [hu]; simp only [List.append_assoc]⟩
  | none =>
    rw [hq] at h'
    cases hg : c.gop with
    | some g =>
      rw [hg] at h'
      obtain ⟨a, as, rfl, q1, _⟩ := parts_inv h'
      obtain ⟨r1, hr1⟩ := starts_gop g.hdr
      obtain ⟨u, hu⟩ := stuffed_starts (by decide) hr1 q1
      exact ⟨0xB8, u ++ (as ++ t), by decide, by decide, by rw [hu]; simp only [List.append_assoc]⟩
    | none =>
      rw [hg] at h'
      obtain ⟨a, as, rfl, q1, _⟩ := parts_inv h'
      obtain ⟨r1, hr1⟩ := starts_pic c.hdr
      obtain ⟨u, hu⟩ := stuffed_starts (by decide) hr1 q1
      exact ⟨0, u ++ (as ++ t), by decide, by decide, by rw [hu]; simp only [List.append_assoc]⟩

theorem fields_noSlice {W H base : Nat} {σ : Option Ctx} {pos : Nat} {cs : List (Coded × Coded)} {bits : List Bool}
    {fields frames : List Image} (h : FieldsCode W H base σ pos cs bits fields frames) {t : List Bool} (ht : NoSlice t) :
    NoSlice (bits ++ t) := by
  cases h with
  | nil => exact ht
  | cons _ _ _ _ _ _ _ _ _ hp _ _ _ => rw [List.append_assoc]; exact fieldParts_noSlice hp _

theorem fields_length {W H base : Nat} {σ : Option Ctx} {pos : Nat} {cs : List (Coded × Coded)} {bits : List Bool}
    {fields frames : List Image} (h : FieldsCode W H base σ pos cs bits fields frames) : fields.length = cs.length := by
  induction h with
  | nil => rfl
  | cons _ _ _ _ _ _ _ _ _ _ _ _ _ ih => simp only [List.length_cons, ih]

theorem fields_run {W H n fuel : Nat} {rest : List Bool} (hn : n < 256) (hns : ¬ (1 ≤ n ∧ n ≤ 0xAF)) {base : Nat}
    {σ : Option Ctx} {pos : Nat} {cs : List (Coded × Coded)} {bits : List Bool} {fields frames : List Image}
    (h : FieldsCode W H base σ pos cs bits fields frames) :
    ∀ {s : VS} {lead : Nat}, AtO W H σ s → (σ ≠ none → lead = 0) → pos % 8 = 0 → 8 * lead ≤ pos → bits.length + 1 ≤ fuel →
      s.br = ⟨zeros (8 * lead) ++ (bits ++ (prefix1 ++ (bitsOf 8 n ++ rest))), pos - 8 * lead, stop, later⟩ →
      ∃ gs s', Run fuel s (gs.flatMap FGroup.coded) s' ∧ FLegal base gs ∧
        AllShow W H ((gs.flatMap FGroup.firsts).map (·.frame)) fields ∧ (cs ≠ [] → ∃ z, At W H z s' ∧
          s'.br = ⟨prefix1 ++ (bitsOf 8 n ++ rest), pos + bits.length, stop, later⟩) := by
  induction h with
  | nil =>
    intro s lead _ _ _ _ _ _
    exact ⟨[], s, .nil s, .nil, .nil, fun h => absurd rfl h⟩
  | @cons base base0 σ pos c d cs b b' more y z fields frames hc hd hdq hdg _ hb0 hct hdt hcx hp hdx hp' hrest ih =>
    intro s lead hat hlead ha hlp hf hb
    simp only [List.length_append] at hf
    obtain ⟨n1, u1, hn1, hns1, hu1⟩ := fields_noSlice hrest (t := prefix1 ++ (bitsOf 8 n ++ rest)) ⟨n, rest, hn, hns, rfl⟩
    obtain ⟨n2, u2, hn2, hns2, hu2⟩ := fieldParts_noSlice hp' (more ++ (prefix1 ++ (bitsOf 8 n ++ rest)))
    obtain ⟨p, s1, he1, hr1, p1, p2, p3, hat1, hbr1, hal1, hsh1⟩ := fieldPict_run (stop := stop) (later := later) hc
      (fun _ => hat) hcx (fun h => hlead fun hσ => h (by rw [hσ] at hat; exact hat)) hp ha hlp (fuel := fuel) (by omega)
      hn2 hns2 (rest := u2) (by rw [hb, ← hu2]; simp only [List.append_assoc])
    obtain ⟨q, s2, he2, hr2, q1, q2, q3, hat2, hbr2, hal2, _⟩ := fieldPict_run (stop := stop) (later := later) hd
      (σ := some y) (fun _ => hat1) hdx (k := 0) (fun _ => rfl) hp' hal1 (by omega) (fuel := fuel) (by omega) hn1 hns1
      (rest := u1) (by rw [hbr1, ← hu2, ← hu1]; rfl)
    obtain ⟨gs, s', k1, k2, k3, k4⟩ := ih (s := s2) (lead := 0) hat2 (fun _ => rfl) hal2 (by omega) (by omega)
      (by rw [hbr2, ← hu1]; rfl)
    refine ⟨⟨p, some q, []⟩ :: gs, s', hr1 _ _ (hr2 _ _ k1), ?_, .cons hsh1 k3, fun _ => ?_⟩
    · refine .cons base0 (by rw [hb0]; show _ = if p.newGop then 0 else base; rw [p1]) ⟨?_, ?_, ?_, ?_, ?_, ?_⟩ ?_ k2
      · exact .inl (p2.trans hc.kind)
      · exact p3.trans hct
      · intro q' hq
        cases hq
        exact ⟨.inl (q2.trans hd.kind), by rw [q1, hdg]; rfl, by rw [q3, hdt]; exact (p3.trans hct).symm⟩
      · intro b hb; cases hb
      · intro i hi; exact absurd hi (Nat.not_lt_zero _)
      · intro b hb; cases hb
      · have := hc.ok.hdr.1
        show base0 + 0 < 1024
        rw [← hct]
        exact this
    · have hlen : pos + (b ++ (b' ++ more)).length = pos + b.length + b'.length + more.length := by
        simp only [List.length_append]; omega
      rw [hlen]
      by_cases hg : cs = []
      · subst hg
        cases hrest
        have : gs = [] := by
          have := k3.length
          cases gs with
          | nil => rfl
          | cons g gs => simp [FGroup.firsts] at this
        subst this
        cases k1
        refine ⟨z, hat2, ?_⟩
        have hu1' : prefix1 ++ (bitsOf 8 n ++ rest) = prefix1 ++ (bitsOf 8 n1 ++ u1) := hu1
        rw [hbr2, hu1']
        rfl
      · exact k4 hg

/-- **C102** (partial): a new decoder on a stream of frames, each coded as two intra field pictures, in any number: `Next`
returns one frame for each pair of fields.  It shows the first of the two fields, its lines one below the other in the
upper half (`C102_lower`); the second field is dropped.  Then the stream ends.

The full claim would be that the frames show `frames`, in which the lines of both fields alternate: see `C102_false`. -/
theorem C102_partial {W H lead fuel k : Nat} {cs : List (Coded × Coded)} {bits rest : List Bool} {fields frames : List Image}
    (hk : 4 ≤ k) (hcs : cs ≠ []) (h : FieldsCode W H 0 none (8 * lead) cs bits fields frames) (hf : bits.length < fuel) :
    ∃ out t, nexts fuel k cs.length (VS.new ⟨zeros (8 * lead) ++ (bits ++ (bitsOf 32 0x1B7 ++ rest)), 0, stop, later⟩) =
        (.ok out, t) ∧
      out.length = fields.length ∧ (∀ i (h1 : i < out.length) (h2 : i < fields.length), Shows W H out[i] fields[i]) ∧
      (VS.next fuel k t).1 = .err .eos ∧ (VS.next fuel k t).2.br.bits = rest := by
  have e7 : bitsOf 32 0x1B7 ++ rest = prefix1 ++ (bitsOf 8 0xB7 ++ rest) := by
    rw [show (0x1B7 : Nat) = 0x100 + 0xB7 from rfl, code32_bits (by decide), List.append_assoc]
  obtain ⟨gs, s', r1, r2, r3, r4⟩ := fields_run (stop := stop) (later := later) (n := 0xB7) (rest := rest) (fuel := fuel)
    (by decide) (by decide) h (s := VS.new ⟨zeros (8 * lead) ++ (bits ++ (bitsOf 32 0x1B7 ++ rest)), 0, stop, later⟩)
    (lead := lead) rfl (fun h => absurd rfl h) (by omega) (Nat.le_refl _) hf
    (by rw [← e7]; simp only [VS.new, Nat.sub_self])
  obtain ⟨z, hat, hbr⟩ := r4 hcs
  have hd : ∀ br, Past (VS.new br).fs (VS.new br).frameCounter := fun br => ⟨fun r h => (by cases h), fun r h => (by cases h)⟩
  obtain ⟨t, pend, t', n1, n2, n3, n4, n5⟩ := fgroups_next (k := k) (pend := none) hk r1 (hd _) (fun q hq => by cases hq) r2
  have hlen : (gs.flatMap FGroup.firsts).length = fields.length := by rw [← r3.length, List.length_map]
  have hlen2 : fields.length = cs.length := fields_length h
  rw [hlen, hlen2] at n1
  obtain ⟨c0, rfl⟩ := n4
  have hend : VS.next fuel k t = (.err .eos, { s' with br := ⟨rest, 8 * lead + bits.length + 32, stop, later⟩, frameCounter := c0 }) := by
    rw [next_loop n2.tryGet]
    obtain ⟨k', rfl⟩ : ∃ k', k = k' + 1 + 1 := ⟨k - 2, by omega⟩
    have n3' : Run fuel t (pend.toList ++ []) { s' with frameCounter := c0 } := by rw [List.append_nil]; exact n3
    obtain ⟨m, j, hj, hm, hr, _⟩ := drop_next (k := k' + 1) n3' fun q hq => by
      obtain ⟨a, b⟩ := n5 q hq
      exact ⟨a, by omega⟩
    cases hr
    rw [hm]
    have hst : step fuel { s' with frameCounter := c0 } = (.err .eos, { s' with
        br := ⟨rest, 8 * lead + bits.length + 32, stop, later⟩, frameCounter := c0 }) := by
      have hsome : ({ s' with frameCounter := c0 } : VS).sh.isSome = true := by
        show s'.sh.isSome = true
        rw [hat.sh]; rfl
      unfold step
      rw [if_pos hsome]
      unfold resume
      rw [Go.bind_ok (peek_at (s := { s' with frameCounter := c0 }) (stop := stop) (later := later) (by decide) hbr),
        if_neg (by decide), if_pos (by decide)]
      have hsk : VS.lift (BR.skip 32) { s' with frameCounter := c0 } = (.ok (), { s' with
          br := ⟨rest, 8 * lead + bits.length + 32, stop, later⟩, frameCounter := c0 }) := by
        unfold VS.lift
        dsimp only
        rw [hbr, ← e7, BR.skip_bitsOf]
      rw [Go.bind_ok hsk]
      rfl
    obtain ⟨j', rfl⟩ : ∃ j', j = j' + 1 := ⟨j - 1, by omega⟩
    unfold nextLoop
    exact Go.bind_err hst
  exact ⟨_, t, n1, r3.length, r3.get, by rw [hend], by rw [hend]⟩

/-! ### what the frame shows -/

theorem mb_other {e : PicEnv} {r : RefPics} {row : Nat} {a : Option Nat} {d : DState} {m : MbData} {c x y : Nat}
    (h : y / side c ≠ row) : (d.mb e r row a m).pic c x y = d.pic c x y := by
  have h1 : ¬ inMB (side c) row (addrAfter a m.incr) x y := fun hi => h hi.2
  unfold DState.mb DState.recon
  dsimp only
  rw [if_neg h1]
  unfold DState.param DState.begin DState.skip
  dsimp only
  split
  · rfl
  · cases a with
    | none => rfl
    | some a =>
      dsimp only
      unfold DState.skipPic
      rw [if_neg]
      intro hr
      exact h hr.2.2

theorem mbs_other {e : PicEnv} {r : RefPics} {row c x y : Nat} (h : y / side c ≠ row) :
    ∀ (ms : List MbData) (a : Option Nat) (d : DState), (DState.mbs e r row a d ms).pic c x y = d.pic c x y
  | [], _, _ => rfl
  | m :: ms, a, d => by
    unfold DState.mbs
    rw [mbs_other h ms, mb_other h]

theorem slices_other {e : PicEnv} {r : RefPics} {c x y : Nat} :
    ∀ (sls : List SliceData) (P : Image), (∀ sl ∈ sls, y / side c ≠ sl.row) → slicesImage e r P sls c x y = P c x y
  | [], _, _ => rfl
  | sl :: sls, P, h => by
    have := slices_other (e := e) (r := r) (x := x) sls (sl.image e r P) fun s hs => h s (List.mem_cons_of_mem _ hs)
    refine Eq.trans this ?_
    exact mbs_other (h sl (List.mem_cons_self ..)) _ _ _

/-- **C102** (the lower half): the picture of a field is zero from the middle on, in all three components. -/
theorem C102_lower {W H : Nat} {c : Coded} {y : Ctx} (h : c.FieldOK W H) {i X Y : Nat} (hY : H ≤ 2 * (Y / side i)) :
    c.field y i X Y = 0 := by
  refine (slices_other _ _ fun sl hsl => ?_).trans rfl
  have := h.rows sl hsl
  omega

/-! ### a stream of two field pictures -/
namespace ExField
open ExStream

/-- a field picture: frame_pred_frame_dct and progressive_frame are 0 -/
def ext (structure_ : Nat) : PicExt :=
  { picE with structure_ := structure_, framePredFrameDCT := 0, chroma420 := false, progressive := false }

/-- 16 x 32 samples, interlaced; the top field, then the bottom field, each one macroblock -/
def top : Coded := ⟨some ⟨seqH 32, seqE 0, []⟩, some ⟨gopH, []⟩, ⟨0, .other 1, 0, []⟩, ext 1, [], [sl 0 mbI]⟩
def bottom : Coded := ⟨none, none, ⟨0, .other 1, 0, []⟩, ext 2, [], [sl 0 mbI]⟩

def envF : PicEnv := (cx 32 0).env top.asFrame

def codeF (row : Nat) (r : RefPics) (P : Image) :
    MbCode envF ((((sl row mbI).start envF P).skip envF r row none mbI.incr).begin envF mbI.type)
      mbI where
  k := 0
  v := 1
  addr := cw (1, 1)
  type := cw (1, 1)
  vecs := fun _ _ => []
  pattern := []
  blocks := Ex.blocks2
  hIncr := rfl
  hAddr := by decide +kernel
  hType := by
    have : envF.ph.pictureCodingType = 1 := rfl
    rw [this]; decide +kernel
  hDct := fun h => by cases h
  hQ := by decide
  hVec := fun s t hs ht h => by
    rcases (show s = 0 ∨ s = 1 by omega) with rfl | rfl <;> cases h
  hPattern := fun h => by cases h
  hCoded := fun i hi _ => by
    rcases (show i = 0 ∨ i = 1 ∨ i = 2 ∨ i = 3 ∨ i = 4 ∨ i = 5 by omega) with rfl | rfl | rfl | rfl | rfl | rfl
    · exact BlockCode.intra (format := 0) (pred := 128) 5 (cw (5, 3)) [] [] [true, false] rfl (by decide) (by decide +kernel) (.nil _)
        (by decide +kernel) (by decide)
    · exact BlockCode.intra (format := 0) (pred := 133) 0 (cw (4, 3)) [] [] [true, false] rfl (by decide) (by decide +kernel) (.nil _)
        (by decide +kernel) (by decide)
    · exact BlockCode.intra (format := 0) (pred := 133) 0 (cw (4, 3)) [] [] [true, false] rfl (by decide) (by decide +kernel) (.nil _)
        (by decide +kernel) (by decide)
    · exact BlockCode.intra (format := 0) (pred := 133) 0 (cw (4, 3)) [] [] [true, false] rfl (by decide) (by decide +kernel) (.nil _)
        (by decide +kernel) (by decide)
    · exact BlockCode.intra (format := 0) (cc := 1) (pred := 128) (-3) (cw (2, 2)) [] [] [true, false] rfl (by decide) (by decide +kernel)
        (.nil _) (by decide +kernel) (by decide)
    · exact BlockCode.intra (format := 0) (pred := 128) 0 (cw (0, 2)) [] [] [true, false] rfl (by decide) (by decide +kernel) (.nil _)
        (by decide +kernel) (by decide)
  hUncoded := fun i hi h => by cases h
  hDc := fun i hi _ => by
    have : ∀ i < 6, -2 ^ 28 ≤ (mbI.qf i).getD 0 0 ∧ (mbI.qf i).getD 0 0 < 2 ^ 28 := by decide +kernel
    exact this i hi

theorem sliceF (row H : Nat) (hr : row < H) (hr' : row < 175) (r : RefPics) (P : Image) :
    SliceCode envF r 1 H P (sl row mbI) ((sl row mbI).head envF ++ ((codeF row r P).bits ++ [])) where
  row := hr
  maxRow := hr'
  q := (by decide : 5 < 32)
  info := fun i h => by cases h
  nonempty := by simp [sl]
  body := ⟨_, .cons ⟨by decide, fun a h => (by cases h), fun a h => (by cases h),
    ⟨fun h => (by cases h), fun h => (by cases h)⟩, fun h => (by cases h)⟩ (codeF row r P) .nil, rfl⟩


theorem okField (c : Coded) (h : c.hdr = ⟨0, .other 1, 0, []⟩) (hc : c.seq = none ∨ c.seq = some ⟨seqH 32, seqE 0, []⟩)
    (hg : ∀ g, c.gop = some g → g.hdr.WF) (s : Nat) (hs1 : s = 1 ∨ s = 2) (he : c.ext = ext s) (hi : c.items = [])
    (hs : c.slices = [sl 0 mbI]) : c.FieldOK 1 2 := by
  have hw : (ext s).asFrame.WF := by
    rcases hs1 with rfl | rfl <;>
    exact ⟨by decide, by decide, by decide, by decide, by decide, by decide, by decide, by decide, by decide,
        by decide, fun c hc => by cases hc⟩
  exact {
  ok := {
    seq := fun q hq => by
      have hq : c.seq = some q := hq
      rcases hc with hc | hc <;> rw [hc] at hq <;> cases hq
      exact ⟨by decide, by decide, rfl, rfl, rfl, rfl, rfl, fun m h => (by cases h), fun m h => (by cases h)⟩
    gop := hg
    hdr := by show c.hdr.WF; rw [h]; decide
    ext := by
      show c.ext.asFrame.WF
      rw [he]
      exact hw
    structure_ := rfl
    conceal := fun h => by
      have h : c.ext.concealment = true := h
      rw [he] at h; cases h
    f00 := by show 1 ≤ c.ext.f00; rw [he]; exact Nat.le_refl 1
    f01 := by show 1 ≤ c.ext.f01; rw [he]; exact Nat.le_refl 1
    f10 := by show 1 ≤ c.ext.f10; rw [he]; exact Nat.le_refl 1
    f11 := by show 1 ≤ c.ext.f11; rw [he]; exact Nat.le_refl 1
    items := by show ∀ it ∈ c.items, _; rw [hi]; intro it h; cases h
    slices := by show c.slices ≠ []; rw [hs]; simp }
  ext := by
    rw [he]
    rcases hs1 with rfl | rfl <;>
    exact ⟨by decide, by decide, by decide, by decide, by decide, by decide, by decide, by decide, by decide,
        by decide, fun c hc => by cases hc⟩
  structure_ := by rw [he]; exact hs1
  conceal := by rw [he]; rfl
  kind := by rw [h]; rfl
  rows := by rw [hs]; intro x hx; cases hx with
    | head => decide
    | tail _ h => cases h }

theorem okTop : top.FieldOK 1 2 :=
  okField _ rfl (.inr rfl) (fun g h => by cases h; decide) 1 (.inl rfl) rfl rfl rfl
theorem okBottom : bottom.FieldOK 1 2 := okField _ rfl (.inl rfl) (fun g h => by cases h) 2 (.inr rfl) rfl rfl rfl

theorem stream : ∃ bits, FieldsCode 1 2 0 none (8 * 1) [(top, bottom)] bits [top.field (cx 32 0)]
    [frameOf top bottom (cx 32 0) (cx 32 0)] := by
  have hT : ∀ pos, ∃ b, Parts pos (top.fieldParts (cx 32 0) 1 2) b := by
    refine parts_ex ?_
    intro P hP pos
    simp only [Coded.fieldParts, top, List.cons_append, List.nil_append, List.mem_cons, List.not_mem_nil, or_false] at hP
    rcases hP with rfl | rfl | rfl | rfl | rfl | rfl | rfl | rfl | rfl
    · exact stuffed_ex _ _
    · exact stuffed_ex _ _
    · exact items_ex _ _
    · exact stuffed_ex _ _
    · exact items_ex _ _
    · exact stuffed_ex _ _
    · exact stuffed_ex _ _
    · exact items_ex _ _
    · exact ⟨_, .cons 1 (sliceF 0 2 (by decide) (by decide) _ blank) .nil⟩
  have hB : ∀ pos, ∃ b, Parts pos (bottom.fieldParts (cx 32 0) 1 2) b := by
    refine parts_ex ?_
    intro P hP pos
    simp only [Coded.fieldParts, bottom, List.cons_append, List.nil_append, List.mem_cons, List.not_mem_nil, or_false] at hP
    rcases hP with rfl | rfl | rfl | rfl
    · exact stuffed_ex _ _
    · exact stuffed_ex _ _
    · exact items_ex _ _
    · exact ⟨_, .cons 1 (sliceF 0 2 (by decide) (by decide) _ blank) .nil⟩
  obtain ⟨b, hb⟩ := hT (8 * 1)
  obtain ⟨b', hb'⟩ := hB (8 * 1 + b.length)
  exact ⟨_, .cons okTop okBottom rfl rfl (by decide) rfl rfl rfl rfl hb rfl hb' .nil⟩

/-- the hypotheses of `C102_first`, met by two pictures that make up one frame -/
example : ∃ fuel br gs s', FLegal 0 gs ∧ Run fuel (VS.new br) (gs.flatMap FGroup.coded) s' ∧
    (gs.flatMap FGroup.firsts).length = 1 := by
  obtain ⟨bits, h⟩ := stream
  obtain ⟨gs, s', r1, r2, r3, _⟩ := fields_run (stop := .eof) (later := []) (n := 0xB7) (rest := []) (by decide) (by decide) h
    (s := VS.new ⟨zeros (8 * 1) ++ (bits ++ (prefix1 ++ (bitsOf 8 0xB7 ++ []))), 0, .eof, []⟩) (lead := 1) rfl
    (fun h => absurd rfl h) (by decide) (Nat.le_refl _) (Nat.le_refl _) rfl
  exact ⟨_, _, gs, s', r2, r1, by have := r3.length; rw [List.length_map] at this; exact this⟩

/-- line 16 of the frame is line 8 of the top field: it is not black -/
theorem line : frameOf top bottom (cx 32 0) (cx 32 0) 0 0 16 = 133 := by decide +kernel

end ExField

/-- **C102** is false: there is a legal stream of one frame coded as two intra field pictures for which `Next` returns a
frame that does not show the frame that the fields make up. -/
theorem C102_false : ∃ (cs : List (Coded × Coded)) (bits : List Bool) (fields frames : List Image) (out : List Frame) (t : VS),
    FieldsCode 1 2 0 none (8 * 1) cs bits fields frames ∧
    nexts (bits.length + 1) 4 cs.length (VS.new ⟨zeros (8 * 1) ++ (bits ++ bitsOf 32 0x1B7), 0, .eof, []⟩) = (.ok out, t) ∧
    out.length = 1 ∧ frames.length = 1 ∧
    ∀ i (h1 : i < out.length) (h2 : i < frames.length), ¬ Shows 1 2 out[i] frames[i] := by
  obtain ⟨bits, h⟩ := ExField.stream
  obtain ⟨out, t, h1, h2, h3, _⟩ := C102_partial (stop := .eof) (later := []) (rest := []) (k := 4) (Nat.le_refl _)
    (List.cons_ne_nil _ _) h (Nat.lt_succ_self _)
  rw [List.append_nil] at h1
  refine ⟨_, bits, _, _, out, t, h, h1, h2, rfl, fun i hi hi' hs => ?_⟩
  have hi0 : i = 0 := by have : i < 1 := hi'; omega
  subst hi0
  have e1 := (h3 0 hi (by decide)).2 0 0 16 (by decide) (by decide) (by decide)
  have e2 := hs.2 0 0 16 (by decide) (by decide) (by decide)
  rw [e1] at e2
  have e3 := C102_lower (y := ExStream.cx 32 0) ExField.okTop (i := 0) (X := 0) (Y := 16) (by decide)
  have e4 := ExField.line
  simp only [List.getElem_cons_zero] at e2
  rw [e3, e4] at e2
  cases e2

end Mpeg.Video
