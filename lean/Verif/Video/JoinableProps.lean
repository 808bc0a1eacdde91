/-
C149: every sequence of pictures has a stream that a decoder can join anywhere.
-/
import Verif.Video.UniversalProps
import Verif.Video.GapsProps
import Verif.Video.JoinableSpec
set_option linter.all false
namespace Mpeg.Video
open Spec

namespace Universal

theorem events_nz : ∀ (l : List Int) (r : Nat) (ev : Nat × Int), ev ∈ events r l → ev.2 ≠ 0
  | [], r, ev, h => by cases h
  | x :: l, r, ev, hm => by
    unfold events at hm
    by_cases h : x = 0
    · rw [if_pos h] at hm
      exact events_nz l (r + 1) ev hm
    · rw [if_neg h] at hm
      rcases List.mem_cons.mp hm with rfl | hm
      · exact h
      · exact events_nz l 0 ev hm

/-- as `blockCode_ex`, with no level 0 -/
theorem block_ex (cc : Nat) (pred : Int) (F : Nat → Int) (hp : 0 ≤ pred ∧ pred ≤ 2047) (h0 : 0 ≤ F 0 ∧ F 0 ≤ 2040)
    (hF : ∀ i, -2041 ≤ F i ∧ F i ≤ 2041) : ∃ bits, BlockCode true 0 cc pred (scanned F) bits ∧ CleanBlock true 0 cc bits := by
  obtain ⟨cd, hcd⟩ := C45_codes cc (F 0 - pred) (by omega)
  obtain ⟨bits, hb⟩ := coded_ex false (events 0 ((List.range 63).map fun n => F (rasterPos (n + 1)))) false (by
    intro ev hev
    obtain ⟨h1, h2⟩ := mem_events _ _ _ hev
    obtain ⟨n, _, hn⟩ := List.mem_map.mp h2
    rw [List.length_map, List.length_range] at h1
    have := hF (rasterPos (n + 1))
    omega)
  have l := length_events ((List.range 63).map fun n => F (rasterPos (n + 1))) 0
  rw [List.length_map, List.length_range] at l
  have := BlockCode.intra (intra := true) (format := 0) (cc := cc) (pred := pred) (F 0 - pred) cd
    (events 0 ((List.range 63).map fun n => F (rasterPos (n + 1)))) bits (cw (2, 2)) rfl (by omega) hcd hb (by decide +kernel) (by omega)
  rw [show pred + (F 0 - pred) = F 0 by omega] at this
  refine ⟨_, this, ?_⟩
  have c := CleanBlock.intra (intra := true) (format := 0) (cc := cc) (dcSizeOf (F 0 - pred)) cd (dcBits (F 0 - pred)) _ bits (cw (2, 2)) rfl hcd
    (by simp [dcBits]) hb (fun ev hev => events_nz _ _ ev hev) (by decide +kernel) (by omega)
  rw [← List.append_assoc] at c
  exact c

theorem clean_blocks {intra : Bool} {format : Nat} {coded : Nat → Bool} {b : Nat → List Bool} : ∀ k i, (∀ j, i ≤ j → j < i + k → coded j = true ∧ CleanBlock intra format (blockComp j) (b j)) →
    CleanBlocks intra format coded k i (concatFrom b i k)
  | 0, i, _ => .nil i
  | k + 1, i, h => .coded k i _ _ (h i (Nat.le_refl _) (by omega)).1 (h i (Nat.le_refl _) (by omega)).2
      (clean_blocks k (i + 1) fun j h1 h2 => h j (by omega) (by omega))

theorem mb_clean {e : PicEnv} (he : Fine e) {C : Coeffs} (hC : InRange C) (row a : Nat) {d : DState} (hd : Good d) :
    ∃ code : MbCode e d (mbAt C row a), CleanMb e code.bits := by
  have hb : ∀ i, ∃ bits, BlockCode true 0 (blockComp i) ((mbAt C row a).dcBefore d.dc i (blockComp i)) (scanned (C row a i)) bits ∧
      CleanBlock true 0 (blockComp i) bits :=
    fun i => block_ex _ _ _ (dcBefore_good hC row a hd.dc i _) (hC.dc row a i) (hC.ac row a i)
  have hcon : ∀ s, hasVec e (mbAt C row a).type s = true → False := by
    intro s h
    unfold hasVec conceals at h
    rw [he.conceal] at h
    rcases (show s = 0 ∨ s ≠ 0 by omega) with rfl | hs
    · cases h
    · revert h
      cases s with
      | zero => exact absurd rfl hs
      | succ s => intro h; simp [mbAt] at h
  let code : MbCode e d (mbAt C row a) := {
    k := 0
    v := 1
    addr := cw (1, 1)
    type := cw (1, 1)
    vecs := fun _ _ => []
    pattern := []
    blocks := fun i => if i < 6 then Classical.choose (hb i) else []
    hIncr := rfl
    hAddr := by decide +kernel
    hType := by
      rw [he.pct]
      show (cw (1, 1), (⟨false, false, false, false, true⟩ : MacroblockType)) ∈ isoType 1
      decide +kernel
    hDct := fun h => by cases h
    hQ := by show 0 < 32; decide
    hVec := fun s t hs ht h => (hcon s h).elim
    hPattern := fun h => by cases h
    hCoded := fun i hi _ => by
      rw [if_pos hi, he.vlc]
      exact (Classical.choose_spec (hb i)).1
    hUncoded := fun i hi h => by cases h
    hDc := fun i hi _ => by
      have := hC.dc row a i
      show -2 ^ 28 ≤ (scanned (C row a i)).getD 0 0 ∧ (scanned (C row a i)).getD 0 0 < 2 ^ 28
      rw [show (scanned (C row a i)).getD 0 0 = C row a i 0 from rfl]
      omega }
  refine ⟨code, ?_⟩
  have hcc : conceals e (⟨false, false, false, false, true⟩ : MacroblockType) = false := by
    unfold conceals; rw [he.conceal]; simp
  have hv : ∀ s, code.vecBits s = [] := fun s => if_neg fun h => hcon s h
  have hbits : code.bits = (escapes 0 ++ (cw (1, 1) ++ (cw (1, 1) ++ ([] ++ ([] ++ ([] ++ ([] ++ ([] ++ [])))))))) ++ ([] ++ concatFrom code.blocks 0 6) := by
    unfold MbCode.bits
    rw [hv, hv, show modeBits e.pce.framePredFrameDCT (mbAt C row a) = [] by unfold modeBits; rw [he.fpfd]; rfl,
      show concealMarker e (mbAt C row a) = [] from by unfold concealMarker; exact if_neg (by rw [show (mbAt C row a).type = ⟨false, false, false, false, true⟩ from rfl, hcc]; decide)]
    simp [code, mbAt]
  rw [hbits]
  refine .mk ⟨false, false, false, false, true⟩ _ [] _ 0 (.mk 0 1 _ _ _ [] [] [] [] [] [] (by decide +kernel) ?_ rfl ?_ rfl ?_ rfl ?_) rfl ?_
  · rw [he.pct]; decide +kernel
  · rw [he.fpfd]; simp
  · rw [hcc]; rfl
  · rw [hcc]; rfl
  · refine clean_blocks 6 0 fun j _ hj => ⟨rfl, ?_⟩
    rw [he.vlc]
    show CleanBlock true 0 (blockComp j) (if j < 6 then Classical.choose (hb j) else [])
    rw [if_pos (by omega)]
    exact (Classical.choose_spec (hb j)).2

theorem mbs_clean {e : PicEnv} (he : Fine e) (r : RefPics) {C : Coeffs} (hC : InRange C) {W H row : Nat} :
    ∀ (n a : Nat) (d : DState), a + n ≤ W → Good d →
      ∃ bits, MbsCode e r W H row (before a) d ((List.range' a n).map (mbAt C row)) bits ∧ (n ≠ 0 → Many (CleanMb e) bits)
  | 0, a, d, _, _ => ⟨[], .nil, fun h => absurd rfl h⟩
  | n + 1, a, d, hw, hd => by
    obtain ⟨g, p⟩ := mb_fine he r hC row a hd (before a) (addrAfter_before a)
    obtain ⟨bits, hb, hm⟩ := mbs_clean he r hC (W := W) (H := H) (row := row) n (a + 1) (d.mb e r row (before a) (mbAt C row a))
      (by omega) g
    obtain ⟨code, hc⟩ := mb_clean he hC row a (begin_eq (e := e) (C := C) r row a d (before a) hd)
    rw [List.range'_succ, List.map_cons]
    rw [before_succ] at hb
    have ea : addrAfter (before a) (mbAt C row a).incr = a := addrAfter_before a
    refine ⟨_, .cons (mbLegal_fine he r (by omega) d _ (addrAfter_before a)) code (by rw [ea]; exact hb), fun _ => ?_⟩
    by_cases hn : n = 0
    · subst hn
      cases hb
      rw [List.append_nil]
      exact .one _ hc
    · exact .cons _ _ hc (hm hn)

theorem slice_clean {e : PicEnv} (he : Fine e) (r : RefPics) {C : Coeffs} (hC : InRange C) {W H row : Nat} (hW : 0 < W)
    (hr : row < H) (hr' : row < 175) (P : Image) :
    ∃ bits, SliceCode e r W H P (rowSlice C W row) bits ∧ CleanElement (row + 1) bits := by
  have g : Good ((rowSlice C W row).start e P) := by
    refine ⟨fun c => ?_, rfl⟩
    show 0 ≤ dcReset e.pce.intraDCPrecision c ∧ dcReset e.pce.intraDCPrecision c ≤ 2047
    rw [he.precision]
    show (0 : Int) ≤ 2 ^ (7 + 3) ∧ (2 : Int) ^ (7 + 3) ≤ 2047
    decide
  obtain ⟨bits, hb, hm⟩ := mbs_clean he r hC (W := W) (H := H) (row := row) W 0 _ (by omega) g
  refine ⟨_, ⟨hr, hr', by show 1 < 32; decide, fun i h => (by cases h), ?_, bits, hb, rfl⟩, ?_⟩
  · intro h
    have := congrArg List.length h
    rw [rowSlice, List.length_map, List.length_range'] at this
    exact absurd this (by simp only [List.length_nil]; omega)
  · have hu : CodesUsed e := ⟨fun h => by rw [he.pct, he.conceal] at h; rcases h with h | h <;> simp at h, fun h => by rw [he.pct] at h; cases h⟩
    refine .slice e hu _ _ ?_ (by omega) ?_
    · have := CleanSlice.mk (e := e) row (if 2800 < e.sh.verticalSizeValue then bitsOf 3 0 else []) (bitsOf 5 1) bits none hr' (by split <;> rfl) rfl
        (fun _ => by decide) (fun i h => by cases h) (hm (by omega))
      simpa only [SliceData.head, SliceData.fields, rowSlice, List.append_assoc] using this
    · unfold SliceData.head
      rw [List.append_assoc, List.take_left' (length_bitsOf ..), show 0x100 + (row + 1) = 0x101 + row by omega]
      rfl

theorem pad_add {pos n : Nat} (h : pos % 8 = 0) : padding (pos + n) = padding n := by unfold padding; omega

theorem slices_clean {e : PicEnv} (he : Fine e) (r : RefPics) {C : Coeffs} (hC : InRange C) {W H : Nat} (hW : 0 < W)
    (hH : H ≤ 175) : ∀ (n row : Nat) (P : Image), row + n ≤ H →
      ∃ bits, (∀ pos, pos % 8 = 0 → SlicesCode e r W H pos P ((List.range' row n).map (rowSlice C W)) bits) ∧ bits.length % 8 = 0 ∧
        CleanStream (List.range' (row + 1) n) bits
  | 0, row, P, _ => ⟨[], fun _ _ => .nil, rfl, .nil⟩
  | n + 1, row, P, h => by
    obtain ⟨b, hb, hc⟩ := slice_clean he r hC hW (row := row) (H := H) (by omega) (by omega) P
    obtain ⟨bs, hbs, h8, hcs⟩ := slices_clean he r hC hW hH n (row + 1) ((rowSlice C W row).image e r P) (by omega)
    have h8b : (b.length + padding b.length) % 8 = 0 := by unfold padding; omega
    rw [List.range'_succ, List.map_cons, List.range'_succ]
    refine ⟨b ++ (zeros (padding b.length) ++ (zeros (8 * 0) ++ bs)), fun pos hp => ?_, ?_, .cons _ _ _ _ _ hc hcs⟩
    · have := SlicesCode.cons (pos := pos) 0 hb (hbs (pos + b.length + padding (pos + b.length) + 8 * 0) (by rw [pad_add hp]; omega))
      rw [pad_add hp] at this
      exact this
    · simp only [List.length_append, zeros, List.length_replicate]
      omega

/-- a header with zeros up to the next byte boundary -/
def st (h : List Bool) : List Bool := h ++ (zeros (padding h.length) ++ zeros (8 * 0))

theorem st_stuffed {h : List Bool} {pos : Nat} (hp : pos % 8 = 0) : Stuffed h pos (st h) :=
  ⟨zeros (padding h.length), 0, by rw [pad_add hp]; simp [zeros], rfl⟩

theorem st_length (h : List Bool) : (st h).length % 8 = 0 := by
  simp only [st, List.length_append, zeros, List.length_replicate]
  unfold padding
  omega

theorem st_clean {n : Nat} {h m : List Bool} {cs : List Nat} (hn : CleanElement n h) (hm : CleanStream cs m) : CleanStream (n :: cs) (st h ++ m) := by
  have := CleanStream.cons n cs (padding h.length) h m hn hm
  simpa [st, zeros] using this

theorem parts_clean {w h : Nat} {C : Coeffs} (hC : InRange C) (hw0 : w % 4096 ≠ 0) (hw : w < 16384) (hh0 : 0 < h) (hh : h ≤ 2800) (r : RefPics) :
    ∃ b cs, (∀ pos, pos % 8 = 0 → Parts pos ((picture w h C).parts (ctxOf w h) r (mbCount w) (mbCount h)) b) ∧ b.length % 8 = 0 ∧
      CleanStream (0xB3 :: cs) b ∧ 0xB3 ∉ cs := by
  obtain ⟨sl, h1, h2, h3⟩ := slices_clean (fine w h C) r hC (W := mbCount w) (H := mbCount h) (by unfold mbCount; omega) (by unfold mbCount; omega) (mbCount h) 0
    blank (by omega)
  have so := seqOK (w := w) (h := h) hw (by omega)
  have po := picOK (w := w) (h := h) C hw (by omega) hh0
  have l1 := st_length (encSeq (seqPart w h).hdr)
  have l2 := st_length (encSeqExt (seqPart w h).ext)
  have l3 := st_length (encGOP ⟨false, 0, 0, true, 0, 0, true, false⟩)
  have l4 := st_length (encPic ⟨0, .other 1, 0, []⟩)
  have l5 := st_length (encPicExt picExt)
  refine ⟨st (encSeq (seqPart w h).hdr) ++ (st (encSeqExt (seqPart w h).ext) ++ ([] ++ (st (encGOP ⟨false, 0, 0, true, 0, 0, true, false⟩) ++ ([] ++
    (st (encPic ⟨0, .other 1, 0, []⟩) ++ (st (encPicExt picExt) ++ ([] ++ (sl ++ [])))))))), 0xB5 :: 0xB8 :: 0 :: 0xB5 :: List.range' 1 (mbCount h), fun pos hp => ?_, ?_, ?_, ?_⟩
  · refine .cons (st_stuffed hp) <| .cons (st_stuffed (by omega)) <| .cons ItemsCode.nil <| .cons (st_stuffed (by simp only [List.length_nil]; omega)) <|
      .cons ItemsCode.nil <| .cons (st_stuffed (by simp only [List.length_nil]; omega)) <| .cons (st_stuffed (by simp only [List.length_nil]; omega)) <|
      .cons ItemsCode.nil <| .cons (h1 _ (by simp only [List.length_nil]; omega)) .nil
  · simp only [List.length_append, List.length_nil]
    omega
  · simp only [List.nil_append, List.append_nil]
    refine st_clean (.seq _ so.hdr hw0 (by show h % 4096 ≠ 0; omega) (by show (3 : Nat) ≠ 0; decide) ?_ ?_) <|
      st_clean (.seqExt _ so.ext (by show (1 : Nat) ≠ 0; decide) rfl) <| st_clean (.gop _ (by decide) rfl) <|
      st_clean (.picture _ (by decide) (by decide : (1 : Nat) ≠ 0)) <| st_clean (.pictureExt _ po.ext (by show (3 : Nat) ≠ 0; decide)) h3
    · intro x hx; cases hx; decide +kernel
    · intro x hx; cases hx
  · intro hm
    have hc : mbCount h ≤ 175 := by unfold mbCount; omega
    simp only [List.mem_cons] at hm
    rcases hm with hm | hm | hm | hm | hm
    · omega
    · omega
    · omega
    · omega
    · have := List.mem_range'.mp hm
      obtain ⟨i, hi, he⟩ := this
      omega

theorem groups_clean {w h : Nat} (hw0 : w % 4096 ≠ 0) (hw : w < 16384) (hh0 : 0 < h) (hh : h ≤ 2800) :
    ∀ (Ps : List Image), (∀ P ∈ Ps, EightBit P) → ∀ (base : Nat) (σ : Option Ctx) (prev : Option Image),
      ∃ (bs : List (List Bool)) (gs : List CGroup) (imgs : List Image),
        (∀ pos, pos % 8 = 0 → GroupsCode (mbCount w) (mbCount h) base σ prev pos gs bs.flatten imgs) ∧ (Ps ≠ [] → Entry gs) ∧
        bs.length = Ps.length ∧ imgs.length = Ps.length ∧
        (∀ i (h1 : i < imgs.length) (h2 : i < Ps.length), NearAll (mbCount w) (mbCount h) imgs[i] Ps[i]) ∧
        (∀ b ∈ bs, b.length % 8 = 0 ∧ ∃ cs, CleanStream (0xB3 :: cs) b ∧ 0xB3 ∉ cs) ∧
        (∀ i, i < Ps.length → ∃ base σ prev gs imgs, (∀ pos, pos % 8 = 0 → GroupsCode (mbCount w) (mbCount h) base σ prev pos gs (bs.drop i).flatten imgs) ∧
          Entry gs ∧ imgs.length = Ps.length - i ∧
          ∀ j (h1 : j < imgs.length) (h2 : i + j < Ps.length), NearAll (mbCount w) (mbCount h) imgs[j] Ps[i + j])
  | [], _, base, σ, prev => ⟨[], [], [], fun _ _ => .nil, fun h => absurd rfl h, rfl, rfl, fun i h1 => by (cases h1), fun b hb => by (cases hb),
      fun i hi => by (cases hi)⟩
  | P :: Ps, hPs, base, σ, prev => by
    have hP := hPs P (List.mem_cons_self ..)
    have hC := coeffs_inRange P hP
    obtain ⟨b, cs, hb, h8, hcl, hcs⟩ := parts_clean (w := w) (h := h) hC hw0 hw hh0 hh ⟨prev, none⟩
    obtain ⟨bs, gs, imgs, hg, hent, hl, hli, hn, hall, hsuf⟩ := groups_clean hw0 hw hh0 hh Ps (fun Q hQ => hPs Q (List.mem_cons_of_mem _ hQ)) 1
      (some (ctxOf w h)) (some ((picture w h (coeffs P hP)).image (ctxOf w h) ⟨prev, none⟩))
    have hG : ∀ pos, pos % 8 = 0 → GroupsCode (mbCount w) (mbCount h) base σ prev pos (⟨picture w h (coeffs P hP), []⟩ :: gs) (b :: bs).flatten
        ((picture w h (coeffs P hP)).image (ctxOf w h) ⟨prev, none⟩ :: imgs) := fun pos hp => by
      have := GroupsCode.cons (g := ⟨picture w h (coeffs P hP), []⟩) (base := base) (σ := σ) (prev := prev) (picOK _ hw (by omega) hh0) (.inl rfl) rfl rfl rfl
        (hb pos hp) .nil (hg (pos + b.length + 0) (by omega))
      exact this
    have hE : Entry (⟨picture w h (coeffs P hP), []⟩ :: gs) :=
      ⟨_, _, rfl, by simp [picture], by simp [picture], rfl, fun c hc => by cases hc⟩
    have hN : ∀ i (h1 : i < ((picture w h (coeffs P hP)).image (ctxOf w h) ⟨prev, none⟩ :: imgs).length) (h2 : i < (P :: Ps).length),
        NearAll (mbCount w) (mbCount h) ((picture w h (coeffs P hP)).image (ctxOf w h) ⟨prev, none⟩ :: imgs)[i] (P :: Ps)[i] := by
      intro i h1 h2
      cases i with
      | zero =>
        intro c x y hc hx hy
        show (picture w h (coeffs P hP)).image (ctxOf w h) ⟨prev, none⟩ c x y ≤ P c x y + 4 ∧
          P c x y ≤ (picture w h (coeffs P hP)).image (ctxOf w h) ⟨prev, none⟩ c x y + 4
        rw [image_fine hC (by omega) hh _ c x y hx hy]
        exact target_near P hP c x y hc
      | succ i => exact hn i (by simpa using h1) (by simpa using h2)
    refine ⟨b :: bs, _, _, hG, fun _ => hE, by rw [List.length_cons, List.length_cons, hl], by rw [List.length_cons, List.length_cons, hli], hN, ?_, ?_⟩
    · intro x hx
      rcases List.mem_cons.mp hx with rfl | hx
      · exact ⟨h8, cs, hcl, hcs⟩
      · exact hall x hx
    · intro i hi
      cases i with
      | zero => exact ⟨base, σ, prev, _, _, hG, hE, by rw [List.length_cons, List.length_cons, hli]; rfl, fun j h1 h2 => by
          simp only [Nat.zero_add]; exact hN j h1 (by omega)⟩
      | succ i =>
        obtain ⟨base, σ, prev, gs, imgs, g1, g2, g3, g4⟩ := hsuf i (by simpa using hi)
        refine ⟨base, σ, prev, gs, imgs, g1, g2, by rw [g3, List.length_cons]; omega, fun j h1 h2 => ?_⟩
        have := g4 j h1 (by rw [List.length_cons] at h2; omega)
        simpa only [show i + 1 + j = i + j + 1 by omega, List.getElem_cons_succ] using this

/-- the codings `bs` of the images `Ps` -/
structure CodingOf (w h : Nat) (Ps : List Image) (bs : List (List Bool)) : Prop where
  len : bs.length = Ps.length
  clean : ∀ b ∈ bs, b.length % 8 = 0 ∧ ∃ cs, CleanStream (0xB3 :: cs) b ∧ 0xB3 ∉ cs
  first : ∃ gs imgs, (∀ pos, pos % 8 = 0 → GroupsCode (mbCount w) (mbCount h) 0 none none pos gs bs.flatten imgs) ∧ (Ps ≠ [] → Entry gs) ∧
    imgs.length = Ps.length ∧ ∀ i (h1 : i < imgs.length) (h2 : i < Ps.length), NearAll (mbCount w) (mbCount h) imgs[i] Ps[i]
  from_ : ∀ i, i < Ps.length → ∃ base σ prev gs imgs,
    (∀ pos, pos % 8 = 0 → GroupsCode (mbCount w) (mbCount h) base σ prev pos gs (bs.drop i).flatten imgs) ∧
    Entry gs ∧ imgs.length = Ps.length - i ∧ ∀ j (h1 : j < imgs.length) (h2 : i + j < Ps.length), NearAll (mbCount w) (mbCount h) imgs[j] Ps[i + j]

theorem coding_ex {w h : Nat} (hw0 : w % 4096 ≠ 0) (hw : w < 16384) (hh0 : 0 < h) (hh : h ≤ 2800) (Ps : List Image) (hP : ∀ P ∈ Ps, EightBit P) :
    ∃ bs, CodingOf w h Ps bs := by
  obtain ⟨bs, gs, imgs, h1, h2, h3, h4, h5, h6, h7⟩ := groups_clean hw0 hw hh0 hh Ps hP 0 none none
  exact ⟨bs, h3, h6, ⟨gs, imgs, h1, h2, h4, h5⟩, h7⟩

theorem flatten8 : ∀ {bs : List (List Bool)}, (∀ b ∈ bs, b.length % 8 = 0) → bs.flatten.length % 8 = 0
  | [], _ => rfl
  | b :: bs, h => by
    have h1 := h b (.head _)
    have h2 := flatten8 (bs := bs) fun x hx => h x (.tail _ hx)
    rw [List.flatten_cons, List.length_append]
    omega

theorem flatten_split (bs : List (List Bool)) (i : Nat) : bs.flatten = (bs.take i).flatten ++ (bs.drop i).flatten := by
  rw [← List.flatten_append, List.take_append_drop]

/-- what lies between a position and the next picture -/
theorem cut_ex {w h : Nat} {Ps : List Image} {bs : List (List Bool)} (hc : CodingOf w h Ps bs) {i n : Nat} (hi : i < Ps.length)
    (hn : 8 * n ≤ picStart bs i) (hj : ∀ j, j < i → picStart bs j < 8 * n) :
    ∃ p skip cs, bs.flatten.drop (8 * n) = skip ++ (bs.drop i).flatten ∧ skip.length % 8 = 0 ∧ CleanStream cs (p ++ skip) ∧
      ((p ≠ [] ∧ 0xB3 ∉ cs.tail) ∨ 0xB3 ∉ cs) := by
  cases i with
  | zero =>
    have : n = 0 := by
      have : picStart bs 0 = 0 := rfl
      omega
    subst this
    exact ⟨[], [], [], rfl, rfl, .nil, .inr (by simp)⟩
  | succ i =>
    have hib : i < bs.length := by have := hc.len; omega
    have e : picStart bs (i + 1) = picStart bs i + bs[i].length := by
      unfold picStart
      rw [List.take_succ_eq_append_getElem hib, List.flatten_append, List.length_append]
      simp
    obtain ⟨h8, cs, c1, c2⟩ := hc.clean bs[i] (List.getElem_mem hib)
    have h8' : picStart bs i % 8 = 0 := flatten8 fun b hb => (hc.clean b (List.mem_of_mem_take hb)).1
    have hlt := hj i (Nat.lt_succ_self _)
    refine ⟨bs[i].take (8 * n - picStart bs i), bs[i].drop (8 * n - picStart bs i), 0xB3 :: cs, ?_, ?_, by rw [List.take_append_drop]; exact c1, .inl ⟨?_, c2⟩⟩
    · rw [flatten_split bs i, List.drop_eq_getElem_cons hib, List.flatten_cons, List.drop_append, List.drop_eq_nil_of_le (by show picStart bs i ≤ _; omega),
        List.nil_append, List.drop_append_of_le_length (by show 8 * n - picStart bs i ≤ _; omega)]
      rfl
    · rw [List.length_drop]; omega
    · intro hnil
      have := congrArg List.length hnil
      rw [List.length_take, List.length_nil] at this
      omega

theorem coding_starts {cs : List Nat} {b : List Bool} (h : CleanStream (0xB3 :: cs) b) : b.take 32 = bitsOf 32 0x1B3 := by
  cases h with
  | cons _ _ k l m h t =>
    obtain ⟨-, w, rfl, -⟩ := fit_element h
    rw [show bitsOf 32 0x1B3 = prefix1 ++ bitsOf 8 0xB3 from bits_code (n := 0xB3) (by omega)]
    rfl

theorem near_frames {w h : Nat} {Ps : List Image} {i : Nat} {imgs : List Image} {frames : List Frame} (hi : i < Ps.length)
    (hl : imgs.length = Ps.length - i) (hn : ∀ j (h1 : j < imgs.length) (h2 : i + j < Ps.length), NearAll (mbCount w) (mbCount h) imgs[j] Ps[i + j])
    (hf : frames.length = imgs.length) (hs : ∀ j (h1 : j < frames.length) (h2 : j < imgs.length), Shows (mbCount w) (mbCount h) frames[j] imgs[j]) :
    frames.length = (Ps.drop i).length ∧ ∀ j (h1 : j < frames.length) (h2 : j < (Ps.drop i).length), NearImage 4 (mbCount w) (mbCount h) frames[j] (Ps.drop i)[j] := by
  refine ⟨by rw [hf, hl, List.length_drop], fun j h1 h2 => ?_⟩
  rw [List.length_drop] at h2
  have sh := hs j h1 (by omega)
  have nr := hn j (by omega) (by omega)
  refine ⟨sh.1, fun c x y hc hx hy => ?_⟩
  rw [sh.2 c x y hc hx hy, List.getElem_drop]
  exact nr c x y hc hx hy

end Universal

open Universal

/-- **C149**: for every picture size up to 16383 × 2800 (the width no multiple of 4096, which the standard forbids) and every list of 8-bit 4:2:0
images there is a stream, a coding of each image one behind the other (whole bytes, beginning with a sequence header), that can be joined anywhere:

* a new decoder that reads it from its beginning (and any number of zero bytes before) returns all pictures;
* a decoder in any state whatsoever that gets the stream from any byte on, also in the middle of a slice, calls `AlignTo` with the sequence header
  code, and returns the pictures from the next one on;
* so it does if before the next complete picture it gets any parts of the codings of the pictures, in any order, with any gaps between them; for
  every part there is at most one wrong stop.

"Returns" is `Spec.ReturnsAll`: at most two frames decoded earlier, then one frame for every image, each sample within 4 levels, then the
end of the stream. -/
theorem C149 {w h : Nat} (hw0 : w % 4096 ≠ 0) (hw : w < 16384) (hh0 : 0 < h) (hh : h ≤ 2800) (Ps : List Image) (hP : ∀ P ∈ Ps, EightBit P) :
    ∃ bs : List (List Bool), bs.length = Ps.length ∧ (∀ b ∈ bs, b.length % 8 = 0 ∧ b.take 32 = bitsOf 32 0x1B3) ∧
      (Ps ≠ [] → ∀ (lead : Nat) (rest : List Bool) (stop : Err) (later : List (List Bool × Err)) (fuel k : Nat), bs.flatten.length < fuel → 2 ≤ k →
        ReturnsAll (mbCount w) (mbCount h) fuel k Ps (VS.new ⟨zeros (8 * lead) ++ (bs.flatten ++ (bitsOf 32 0x1B7 ++ rest)), 0, stop, later⟩)
          (VS.new ⟨zeros (8 * lead) ++ (bs.flatten ++ (bitsOf 32 0x1B7 ++ rest)), 0, stop, later⟩) rest) ∧
      (∀ (i n : Nat) (s : VS) (rest : List Bool) (fuel k : Nat), i < Ps.length → 8 * n ≤ picStart bs i → (∀ j, j < i → picStart bs j < 8 * n) →
        fromBoundary s.br = bs.flatten.drop (8 * n) ++ (bitsOf 32 0x1B7 ++ rest) → bs.flatten.length < fuel → 2 ≤ k →
        ∃ s1, VS.lift (alignTo 0x1B3) s = (.ok (), s1) ∧ ReturnsAll (mbCount w) (mbCount h) fuel k (Ps.drop i) s s1 rest) ∧
      (∀ (i : Nat) (ms : List (List Bool)) (s : VS) (rest : List Bool) (fuel k : Nat), i < Ps.length →
        (∀ m ∈ ms, ∃ b ∈ bs, ∃ p q, b = p ++ (m ++ q) ∧ p ≠ []) → ms.flatten.length % 8 = 0 →
        fromBoundary s.br = ms.flatten ++ ((bs.drop i).flatten ++ (bitsOf 32 0x1B7 ++ rest)) → bs.flatten.length < fuel → 2 ≤ k →
        ∃ c br, c ≤ ms.length ∧ Finds 0xB3 c s.br br ∧ ReturnsAll (mbCount w) (mbCount h) fuel k (Ps.drop i) s { s with br := br } rest) := by
  obtain ⟨bs, hc⟩ := coding_ex hw0 hw hh0 hh Ps hP
  have hlen : ∀ i, (bs.drop i).flatten.length ≤ bs.flatten.length := fun i => by
    rw [flatten_split bs i, List.length_append]; omega
  have hpad : ∀ p : Nat, (p + padding p) % 8 = 0 := fun p => by unfold padding; omega
  refine ⟨bs, hc.len, fun b hb => ⟨(hc.clean b hb).1, by obtain ⟨_, cs, h, _⟩ := hc.clean b hb; exact coding_starts h⟩, fun hne lead rest stop later fuel k hf hk => ?_, fun i n s rest fuel k hi hn hj hb hf hk => ?_, fun i ms s rest fuel k hi hm h8 hb hf hk => ?_⟩
  · obtain ⟨gs, imgs, g1, g2, g3, g4⟩ := hc.first
    have hgs : gs ≠ [] := by obtain ⟨g, more, e, _⟩ := g2 hne; rw [e]; exact List.cons_ne_nil _ _
    obtain ⟨frames, t, h1, h2, h3, h4, h5⟩ := C75_partial (stop := stop) (later := later) (rest := rest) hk hgs (g1 (8 * lead) (by omega)) hf
    have hp : 0 < Ps.length := List.length_pos_iff.mpr hne
    obtain ⟨n1, n2⟩ := near_frames (i := 0) hp g3 (fun j h1 h2 => by simp only [Nat.zero_add]; exact g4 j h1 (by omega)) h2 h3
    refine ⟨[], frames, t, ?_, by simp, fun f hf => by (cases hf), fun _ => rfl, n1, n2, h4, h5⟩
    rw [g3] at h1
    simpa using h1
  · obtain ⟨p, skip, cs, e, s8, c1, c2⟩ := cut_ex hc hi hn hj
    obtain ⟨base, σ, prev, gs, imgs, g1, g2, g3, g4⟩ := hc.from_ i hi
    have := hpad s.br.pos
    obtain ⟨s1, r0, w', frames, t, r1, r2, r3, r4, r5, r6, r7, r8⟩ := C147_seek_partial (rest := rest) hk g2 s (by rw [hb, e, List.append_assoc]) s8 c1 c2 (g1 _ (by omega))
      (Nat.lt_of_le_of_lt (hlen i) hf)
    obtain ⟨n1, n2⟩ := near_frames hi g3 g4 r5 r6
    rw [g3, ← List.length_drop] at r1
    exact ⟨s1, r0, w', frames, t, r1, r2, r3, r4, n1, n2, r7, r8⟩
  · obtain ⟨base, σ, prev, gs, imgs, g1, g2, g3, g4⟩ := hc.from_ i hi
    have := hpad s.br.pos
    have hm' : ∀ m ∈ ms, CleanPart 0xB3 m := by
      intro m hmm
      obtain ⟨b, hbm, p, q, e, hp⟩ := hm m hmm
      obtain ⟨_, cs, c1, c2⟩ := hc.clean b hbm
      rw [e] at c1
      exact ⟨_, p, q, c1, .inl ⟨hp, c2⟩⟩
    obtain ⟨c, br, r9, r0, w', frames, t, r1, r2, r3, r4, r5, r6, r7, r8⟩ := C148_resume_partial (rest := rest) hk g2 s hb h8 hm' (g1 _ (by omega))
      (Nat.lt_of_le_of_lt (hlen i) hf)
    obtain ⟨n1, n2⟩ := near_frames hi g3 g4 r5 r6
    rw [g3, ← List.length_drop] at r1
    exact ⟨c, br, r9, r0, w', frames, t, r1, r2, r3, r4, n1, n2, r7, r8⟩

/-! ### concrete cases -/

namespace JoinEx

/-- a black picture and a chequered one, 720 x 576 -/
def imgs : List Image := [fun _ _ _ => 0, fun c x y => if c = 0 then 255 * ((x / 16 + y / 16) % 2) else 128]
theorem imgs_ok : ∀ P ∈ imgs, EightBit P := by
  intro P hP
  simp only [imgs, List.mem_cons, List.not_mem_nil, or_false] at hP
  rcases hP with rfl | rfl
  · intro c x y; exact Nat.zero_le _
  · intro c x y
    show (if c = 0 then 255 * ((x / 16 + y / 16) % 2) else 128) ≤ 255
    split <;> omega

theorem long {b : List Bool} (h : b.take 32 = bitsOf 32 0x1B3) : 32 ≤ b.length := by
  have := congrArg List.length h
  rw [List.length_take, length_bitsOf] at this
  omega

/-- from the second byte of the first picture on, with a decoder that has decoded something else before -/
example : ∃ (bits : List Bool) (s1 : VS) (fuel : Nat), VS.lift (alignTo 0x1B3) (ExStream.dirty ⟨bits, 0, .eof, []⟩) = (.ok (), s1) ∧
    ReturnsAll 45 36 fuel 2 (imgs.drop 1) (ExStream.dirty ⟨bits, 0, .eof, []⟩) s1 [] := by
  obtain ⟨bs, hl, hs, _, hj, _⟩ := C149 (w := 720) (h := 576) (by decide) (by decide) (by decide) (by decide) imgs imgs_ok
  obtain ⟨b0, b1, rfl⟩ : ∃ b0 b1, bs = [b0, b1] := by
    match bs, hl with
    | [b0, b1], _ => exact ⟨b0, b1, rfl⟩
  have h0 := long (hs b0 (.head _)).2
  have e1 : picStart [b0, b1] 1 = b0.length := by simp [picStart]
  have hfb : ∀ x : List Bool, fromBoundary (ExStream.dirty ⟨x, 0, .eof, []⟩).br = x := by
    intro x
    show List.drop (padding 0) x = x
    rw [show padding 0 = 0 by decide]
    rfl
  obtain ⟨s1, r1, r2⟩ := hj 1 1 (ExStream.dirty ⟨[b0, b1].flatten.drop (8 * 1) ++ (bitsOf 32 0x1B7 ++ []), 0, .eof, []⟩) [] ([b0, b1].flatten.length + 1) 2
    (by decide) (by rw [e1]; omega) (fun j hj => by
      obtain rfl : j = 0 := by omega
      show 0 < 8
      omega) (hfb _) (Nat.lt_succ_self _) (Nat.le_refl _)
  exact ⟨_, s1, _, r1, r2⟩

/-- two parts of the first picture, in the wrong order, and then the second one -/
example : ∃ (b0 bits : List Bool) (c : Nat) (br : BR) (fuel : Nat), c ≤ 2 ∧
    Finds 0xB3 c ⟨((b0.drop 16).take 8 ++ (b0.drop 8).take 8) ++ bits, 0, .eof, []⟩ br ∧
    ReturnsAll 45 36 fuel 2 (imgs.drop 1) (ExStream.dirty ⟨((b0.drop 16).take 8 ++ (b0.drop 8).take 8) ++ bits, 0, .eof, []⟩) { ExStream.dirty ⟨[], 0, .eof, []⟩ with br := br } [] := by
  obtain ⟨bs, hl, hs, _, _, hg⟩ := C149 (w := 720) (h := 576) (by decide) (by decide) (by decide) (by decide) imgs imgs_ok
  obtain ⟨b0, b1, rfl⟩ : ∃ b0 b1, bs = [b0, b1] := by
    match bs, hl with
    | [b0, b1], _ => exact ⟨b0, b1, rfl⟩
  have h0 := long (hs b0 (.head _)).2
  have hfb : ∀ x : List Bool, fromBoundary (ExStream.dirty ⟨x, 0, .eof, []⟩).br = x := by
    intro x
    show List.drop (padding 0) x = x
    rw [show padding 0 = 0 by decide]
    rfl
  have part : ∀ n, n = 8 ∨ n = 16 → ∃ b ∈ [b0, b1], ∃ p q, b = p ++ ((b0.drop n).take 8 ++ q) ∧ p ≠ [] := by
    intro n hn
    refine ⟨b0, .head _, b0.take n, (b0.drop n).drop 8, by rw [List.take_append_drop, List.take_append_drop], fun h => ?_⟩
    have := congrArg List.length h
    rw [List.length_take, List.length_nil] at this
    omega
  obtain ⟨c, br, r1, r2, r3⟩ := hg 1 [(b0.drop 16).take 8, (b0.drop 8).take 8]
    (ExStream.dirty ⟨((b0.drop 16).take 8 ++ (b0.drop 8).take 8) ++ (b1 ++ (bitsOf 32 0x1B7 ++ [])), 0, .eof, []⟩) [] ([b0, b1].flatten.length + 1) 2 (by decide)
    (fun m hm => by
      simp only [List.mem_cons, List.not_mem_nil, or_false] at hm
      rcases hm with rfl | rfl
      · exact part 16 (.inr rfl)
      · exact part 8 (.inl rfl)) (by simp only [List.flatten_cons, List.flatten_nil, List.length_append, List.length_take, List.length_drop, List.length_nil]; omega)
    (by rw [hfb]; simp) (Nat.lt_succ_self _) (Nat.le_refl _)
  exact ⟨b0, _, c, br, _, r1, r2, r3⟩

end JoinEx

end Mpeg.Video
