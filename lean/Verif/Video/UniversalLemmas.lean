import Mathlib.Data.List.GetD
import Verif.Video.IdctLemmas4
import Verif.Video.BlockProps
import Verif.Video.StreamProps

/-! Every picture has a coding: blocks, macroblocks, slices. -/

namespace Mpeg.Video.Universal

open Spec

/-! ### run and level -/

/-- the events of a list of coefficients, after `r` zeros -/
def events : Nat → List Int → List (Nat × Int)
  | _, [] => []
  | r, x :: l => if x = 0 then events (r + 1) l else (r, x) :: events 0 l

theorem expand_cons (r : Nat) (x : Int) (evs : List (Nat × Int)) :
    expand ((r, x) :: evs) = List.replicate r 0 ++ x :: expand evs := by
  unfold expand
  rw [List.flatMap_cons, List.append_assoc]
  rfl

theorem getD_append_zeros (r i : Nat) (l m : List Int) (h : ∀ i, l.getD i 0 = m.getD i 0) :
    (List.replicate r (0 : Int) ++ l).getD i 0 = (List.replicate r 0 ++ m).getD i 0 := by
  by_cases hi : i < r
  · rw [List.getD_append _ _ _ _ (by simpa using hi), List.getD_append _ _ _ _ (by simpa using hi)]
  · rw [List.getD_append_right _ _ _ _ (by simpa using hi), List.getD_append_right _ _ _ _ (by simpa using hi)]
    exact h _

theorem expand_events : ∀ (l : List Int) (r i : Nat),
    (expand (events r l)).getD i 0 = (List.replicate r 0 ++ l).getD i 0
  | [], r, i => by
    simp only [events, expand, List.flatMap_nil, List.getD_nil, List.append_nil]
    by_cases h : i < r
    · rw [List.getD_eq_getElem _ _ (by simpa using h)]; simp
    · rw [List.getD_eq_default _ _ (by simpa using h)]
  | x :: l, r, i => by
    unfold events
    by_cases h : x = 0
    · subst h
      rw [if_pos rfl, expand_events l (r + 1) i, List.replicate_succ', List.append_assoc]
      rfl
    · rw [if_neg h, expand_cons]
      apply getD_append_zeros
      intro i
      cases i with
      | zero => rfl
      | succ i =>
        rw [List.getD_cons_succ, List.getD_cons_succ]
        exact expand_events l 0 i

theorem length_events : ∀ (l : List Int) (r : Nat), (expand (events r l)).length ≤ r + l.length
  | [], r => by simp [events, expand]
  | x :: l, r => by
    unfold events
    by_cases h : x = 0
    · rw [if_pos h]
      have := length_events l (r + 1)
      simp only [List.length_cons]
      omega
    · rw [if_neg h, expand_cons]
      have := length_events l 0
      simp only [List.length_append, List.length_replicate, List.length_cons]
      omega

theorem mem_events : ∀ (l : List Int) (r : Nat) (ev : Nat × Int), ev ∈ events r l → ev.1 < r + l.length ∧ ev.2 ∈ l
  | [], r, ev => fun h => by cases h
  | x :: l, r, ev => by
    unfold events
    intro hm
    by_cases h : x = 0
    · rw [if_pos h] at hm
      have := mem_events l (r + 1) ev hm
      exact ⟨by simp only [List.length_cons]; omega, List.mem_cons_of_mem _ this.2⟩
    · rw [if_neg h] at hm
      rcases List.mem_cons.mp hm with rfl | hm
      · exact ⟨by simp only [List.length_cons]; omega, List.mem_cons_self ..⟩
      · have := mem_events l 0 ev hm
        exact ⟨by simp only [List.length_cons]; omega, List.mem_cons_of_mem _ this.2⟩

theorem escape_ex (one first : Bool) : ∃ c, (c, DctSym.escape) ∈ isoCoef one first := by
  cases one <;> cases first <;> exact ⟨cw (1, 6), by decide +kernel⟩

theorem coded_ex (one : Bool) : ∀ (evs : List (Nat × Int)) (first : Bool),
    (∀ ev ∈ evs, ev.1 < 64 ∧ -2048 ≤ ev.2 ∧ ev.2 < 2048) → ∃ bits, CodedEvents one first evs bits
  | [], first, _ => ⟨[], .nil _⟩
  | ev :: evs, first, h => by
    obtain ⟨c, hc⟩ := escape_ex one first
    obtain ⟨bits, hb⟩ := coded_ex one evs false fun x hx => h x (List.mem_cons_of_mem _ hx)
    have := h ev (List.mem_cons_self ..)
    exact ⟨_, .cons first ev.1 ev.2 evs _ bits (.escape c hc this.1 this.2) hb⟩

/-! ### the coefficients of a block -/

/-- the raster position of a scan position -/
def rasterPos (n : Nat) : Nat := ((List.range 64).find? fun i => scanPos 0 i == n).getD 0

theorem rasterPos_scan : ∀ i < 64, rasterPos (scanPos 0 i) = i ∧ scanPos 0 i < 64 ∧ (i ≠ 0 → 0 < scanPos 0 i) := by
  decide +kernel

/-- the coefficients `F` in scan order, without the zeros at the end -/
def scanned (F : Nat → Int) : List Int :=
  F 0 :: expand (events 0 ((List.range 63).map fun n => F (rasterPos (n + 1))))

theorem scanned_at (F : Nat → Int) (i : Nat) (hi : i < 64) : (scanned F).getD (scanPos 0 i) 0 = F i := by
  obtain ⟨h1, h2, h3⟩ := rasterPos_scan i hi
  by_cases h0 : i = 0
  · subst h0; rfl
  · obtain ⟨n, hn⟩ : ∃ n, scanPos 0 i = n + 1 := ⟨scanPos 0 i - 1, by have := h3 h0; omega⟩
    rw [hn] at h1 h2 ⊢
    unfold scanned
    rw [List.getD_cons_succ, expand_events, List.replicate_zero, List.nil_append,
      List.getD_eq_getElem _ _ (by simp; omega)]
    simp [h1]

theorem blockCode_ex (cc : Nat) (pred : Int) (F : Nat → Int) (hp : 0 ≤ pred ∧ pred ≤ 2047) (h0 : 0 ≤ F 0 ∧ F 0 ≤ 2040)
    (hF : ∀ i, -2041 ≤ F i ∧ F i ≤ 2041) : ∃ bits, BlockCode true 0 cc pred (scanned F) bits := by
  obtain ⟨cd, hcd⟩ := C45_codes cc (F 0 - pred) (by omega)
  obtain ⟨bits, hb⟩ := coded_ex false (events 0 ((List.range 63).map fun n => F (rasterPos (n + 1)))) false (by
    intro ev hev
    obtain ⟨h1, h2⟩ := mem_events _ _ _ hev
    obtain ⟨n, _, hn⟩ := List.mem_map.mp h2
    rw [List.length_map, List.length_range] at h1
    have := hF (rasterPos (n + 1))
    omega)
  have l := length_events ((List.range 63).map fun n => F (rasterPos (n + 1))) 0
  rw [List.length_map, List.length_range] at l
  have := BlockCode.intra (intra := true) (format := 0) (cc := cc) (pred := pred) (F 0 - pred) cd
    (events 0 ((List.range 63).map fun n => F (rasterPos (n + 1)))) bits (cw (2, 2)) rfl (by omega) hcd hb (by decide +kernel) (by omega)
  rw [show pred + (F 0 - pred) = F 0 by omega] at this
  exact ⟨_, this⟩

/-- The pictures of this file: intra pictures with the finest quantiser. -/
structure Fine (e : PicEnv) : Prop where
  pct : e.ph.pictureCodingType = 1
  fpfd : e.pce.framePredFrameDCT = 1
  conceal : e.pce.concealmentMotionVectors = false
  vlc : e.pce.intraVLCFormat = 0
  precision : e.pce.intraDCPrecision = 3
  scale : e.pce.qScaleType = 1
  scan : e.pce.alternateScan = 0
  mat : e.qm.m0 = 8 :: List.replicate 63 16

theorem coefficients_fine {e : PicEnv} (he : Fine e) (F : Nat → Int) (hF : ∀ i, -2041 ≤ F i ∧ F i ≤ 2041)
    (ho : ((List.range 64).map F).sum % 2 = 1) : coefficients e 1 true (scanned F) = (List.range 64).map F := by
  unfold coefficients isoDequant
  rw [he.precision, he.scale, he.scan, if_pos rfl, he.mat]
  have e1 : ((List.range 64).map fun i => isoSaturate (if i = 0 ∧ true = true then isoDcMult 3 *
        ((List.range 64).map fun i => (scanned F).getD (scanPos 0 i) 0).getD 0 0
      else isoAC true (((List.range 64).map fun i => (scanned F).getD (scanPos 0 i) 0).getD i 0)
        (((8 :: List.replicate 63 16 : List Nat).getD i 0 : Nat) : Int) (isoScale 1 1))) = (List.range 64).map F := by
    apply List.map_congr_left
    intro i hi
    have hi := List.mem_range.mp hi
    have g : ∀ i, i < 64 → ((List.range 64).map fun i => (scanned F).getD (scanPos 0 i) 0).getD i 0 = F i := by
      intro i hi
      rw [List.getD_eq_getElem _ _ (by simpa using hi)]
      simp only [List.getElem_map, List.getElem_range]
      exact scanned_at F i hi
    have b := hF i
    have sat : isoSaturate (F i) = F i := by unfold isoSaturate; omega
    rw [g 0 (by omega), g i hi]
    by_cases h0 : i = 0
    · subst h0
      rw [if_pos ⟨rfl, rfl⟩, show isoDcMult 3 = 1 from rfl, Int.one_mul]
      exact sat
    · rw [if_neg fun h => h0 h.1]
      have w : (8 :: List.replicate 63 16 : List Nat).getD i 0 = 16 := by
        obtain ⟨n, rfl⟩ : ∃ n, i = n + 1 := ⟨i - 1, by omega⟩
        rw [List.getD_cons_succ, List.getD_eq_getElem _ _ (by simp; omega)]
        exact List.getElem_replicate ..
      have ac : isoAC true (F i) (((8 :: List.replicate 63 16 : List Nat).getD i 0 : Nat) : Int) (isoScale 1 1) = F i := by
        rw [w]
        unfold isoAC
        rw [if_pos rfl, show isoScale 1 1 = 1 from rfl]
        rw [show (2 * F i + 0) * ((16 : Nat) : Int) * 1 = F i * 32 by omega]
        exact Int.mul_tdiv_cancel _ (by decide)
      rw [ac]
      exact sat
  rw [e1]
  unfold isoMismatch
  rw [if_neg (by omega)]

/-! ### macroblocks -/

/-- coefficients for the blocks of all macroblocks: row, column, block -/
abbrev Coeffs := Nat → Nat → Nat → Nat → Int

structure InRange (C : Coeffs) : Prop where
  dc : ∀ row a i, 0 ≤ C row a i 0 ∧ C row a i 0 ≤ 2040
  ac : ∀ row a i j, -2041 ≤ C row a i j ∧ C row a i j ≤ 2041
  high : ∀ row a i j, 64 ≤ j → C row a i j = 0
  odd : ∀ row a i, ((List.range 64).map (C row a i)).sum % 2 = 1

/-- the macroblock -/
def mbAt (C : Coeffs) (row a : Nat) : MbData :=
  ⟨1, ⟨false, false, false, false, true⟩, false, 0, fun _ _ => 0, 0, fun i => scanned (C row a i)⟩

theorem residual_fine {e : PicEnv} (he : Fine e) {C : Coeffs} (hC : InRange C) (row a i k : Nat) :
    (mbAt C row a).residual e 1 i k = idct (C row a i) k := by
  unfold MbData.residual
  rw [if_pos (show (mbAt C row a).coded i = true from rfl)]
  have : (fun j => (coefficients e 1 (mbAt C row a).type.intra ((mbAt C row a).qf i)).getD j 0) = C row a i := by
    funext j
    show (coefficients e 1 true (scanned (C row a i))).getD j 0 = _
    rw [coefficients_fine he _ (hC.ac row a i) (hC.odd row a i)]
    by_cases hj : j < 64
    · rw [List.getD_eq_getElem _ _ (by simpa using hj)]
      simp
    · rw [List.getD_eq_default _ _ (by simpa using hj), hC.high row a i j (by omega)]
  rw [this]

/-- the state between macroblocks -/
structure Good (d : DState) : Prop where
  dc : ∀ c, 0 ≤ d.dc c ∧ d.dc c ≤ 2047
  q : d.qsc = 1

theorem dcBefore_good {C : Coeffs} (hC : InRange C) (row a : Nat) {dc : Nat → Int} (h : ∀ c, 0 ≤ dc c ∧ dc c ≤ 2047) :
    ∀ i c, 0 ≤ (mbAt C row a).dcBefore dc i c ∧ (mbAt C row a).dcBefore dc i c ≤ 2047
  | 0, c => h c
  | i + 1, c => by
    unfold MbData.dcBefore
    split
    · have := hC.dc row a i
      show 0 ≤ (scanned (C row a i)).getD 0 0 ∧ (scanned (C row a i)).getD 0 0 ≤ 2047
      rw [show (scanned (C row a i)).getD 0 0 = C row a i 0 from rfl]
      omega
    · exact dcBefore_good hC row a h i c

theorem mbCode_ex {e : PicEnv} (he : Fine e) {C : Coeffs} (hC : InRange C) (row a : Nat) {d : DState} (hd : Good d) :
    Nonempty (MbCode e d (mbAt C row a)) := by
  have hb : ∀ i, ∃ bits, BlockCode true 0 (blockComp i) ((mbAt C row a).dcBefore d.dc i (blockComp i)) (scanned (C row a i)) bits :=
    fun i => blockCode_ex _ _ _ (dcBefore_good hC row a hd.dc i _) (hC.dc row a i) (hC.ac row a i)
  exact ⟨{
    k := 0
    v := 1
    addr := cw (1, 1)
    type := cw (1, 1)
    vecs := fun _ _ => []
    pattern := []
    blocks := fun i => if i < 6 then Classical.choose (hb i) else []
    hIncr := rfl
    hAddr := by decide +kernel
    hType := by
      rw [he.pct]
      show (cw (1, 1), (⟨false, false, false, false, true⟩ : MacroblockType)) ∈ isoType 1
      decide +kernel
    hDct := fun h => by cases h
    hQ := by show 0 < 32; decide
    hVec := fun s t hs ht h => by
      exfalso
      unfold hasVec conceals at h
      rw [he.conceal] at h
      rcases (show s = 0 ∨ s = 1 by omega) with rfl | rfl <;> cases h
    hPattern := fun h => by cases h
    hCoded := fun i hi _ => by
      rw [if_pos hi, he.vlc]
      exact Classical.choose_spec (hb i)
    hUncoded := fun i hi h => by cases h
    hDc := fun i hi _ => by
      have := hC.dc row a i
      show -2 ^ 28 ≤ (scanned (C row a i)).getD 0 0 ∧ (scanned (C row a i)).getD 0 0 < 2 ^ 28
      rw [show (scanned (C row a i)).getD 0 0 = C row a i 0 from rfl]
      omega }⟩

/-- the picture -/
def target (C : Coeffs) : Image := fun c x y =>
  clip (idct (C (y / side c) (x / side c) (blockAt false c x y)) (indexAt false c x y))

/-- the address before `a` -/
def before (a : Nat) : Option Nat := if a = 0 then none else some (a - 1)

theorem addrAfter_before (a : Nat) : addrAfter (before a) 1 = a := by
  unfold before addrAfter
  by_cases h : a = 0
  · subst h; rfl
  · rw [if_neg h]
    show a - 1 + 1 = a
    omega

theorem before_succ (a : Nat) : before (a + 1) = some a := by
  unfold before
  rw [if_neg (by omega)]
  rfl

theorem begin_eq {e : PicEnv} (r : RefPics) {C : Coeffs} (row a : Nat) (d : DState) (ad : Option Nat) :
    Good d → Good ((d.skip e r row ad (mbAt C row a).incr).begin e (mbAt C row a).type) := by
  intro hd
  have : (d.skip e r row ad (mbAt C row a).incr) = d := by
    unfold DState.skip
    exact if_pos (Nat.le_refl 1)
  rw [this]
  exact ⟨hd.dc, hd.q⟩

theorem mb_fine {e : PicEnv} (he : Fine e) (r : RefPics) {C : Coeffs} (hC : InRange C) (row a : Nat) {d : DState} (hd : Good d)
    (ad : Option Nat) (had : addrAfter ad 1 = a) :
    Good (d.mb e r row ad (mbAt C row a)) ∧ (∀ c x y, (d.mb e r row ad (mbAt C row a)).pic c x y =
      if inMB (side c) row a x y then target C c x y else d.pic c x y) := by
  have hs : (d.skip e r row ad (mbAt C row a).incr) = d := by
    unfold DState.skip
    exact if_pos (Nat.le_refl 1)
  unfold DState.mb
  rw [hs, show addrAfter ad (mbAt C row a).incr = a from had]
  have q : ((d.begin e (mbAt C row a).type).param e (mbAt C row a)).qsc = 1 := hd.q
  refine ⟨⟨?_, hd.q⟩, ?_⟩
  · exact dcBefore_good hC row a hd.dc 6
  · intro c x y
    show (if inMB (side c) row a x y then _ else _) = _
    by_cases h : inMB (side c) row a x y
    · rw [if_pos h, if_pos h, q, residual_fine he hC]
      unfold target
      rw [h.1, h.2]
      show clip (_ + ((0 : Nat) : Int)) = _
      rw [show ((0 : Nat) : Int) = 0 from rfl, Int.add_zero]
      rfl
    · rw [if_neg h, if_neg h]
      rfl

theorem mbLegal_fine {e : PicEnv} (he : Fine e) (r : RefPics) {C : Coeffs} {W H row a : Nat} (ha : a < W) (d : DState)
    (ad : Option Nat) (had : addrAfter ad 1 = a) : MbLegal e r W H row ad d (mbAt C row a) where
  inPicture := by
    show addrAfter ad 1 < W
    rw [had]; exact ha
  skipP := fun a _ _ h => by rw [he.pct] at h; cases h
  skipB := fun a _ h => by rw [he.pct] at h; cases h
  vectors := ⟨fun h => (by cases h), fun h => (by cases h)⟩
  frameDct := fun h => by cases h

/-! ### slices -/

theorem mbs_fine {e : PicEnv} (he : Fine e) (r : RefPics) {C : Coeffs} (hC : InRange C) {W H row : Nat} :
    ∀ (n a : Nat) (d : DState), a + n ≤ W → Good d →
      (∃ bits, MbsCode e r W H row (before a) d ((List.range' a n).map (mbAt C row)) bits) ∧
      ∀ c x y, (DState.mbs e r row (before a) d ((List.range' a n).map (mbAt C row))).pic c x y =
        if (a ≤ x / side c ∧ x / side c < a + n) ∧ y / side c = row then target C c x y else d.pic c x y
  | 0, a, d, _, _ => ⟨⟨[], .nil⟩, fun c x y => by
      rw [if_neg (by omega)]
      rfl⟩
  | n + 1, a, d, hw, hd => by
    obtain ⟨g, p⟩ := mb_fine he r hC row a hd (before a) (addrAfter_before a)
    obtain ⟨⟨bits, hb⟩, hp⟩ := mbs_fine he r hC (W := W) (H := H) (row := row) n (a + 1) (d.mb e r row (before a) (mbAt C row a))
      (by omega) g
    obtain ⟨code⟩ := mbCode_ex he hC row a (begin_eq (e := e) (C := C) r row a d (before a) hd)
    rw [List.range'_succ, List.map_cons]
    rw [before_succ] at hb hp
    have ea : addrAfter (before a) (mbAt C row a).incr = a := addrAfter_before a
    refine ⟨⟨_, .cons (mbLegal_fine he r (by omega) d _ (addrAfter_before a)) code (by rw [ea]; exact hb)⟩, ?_⟩
    intro c x y
    unfold DState.mbs
    rw [ea, hp c x y, p c x y]
    by_cases h1 : (a + 1 ≤ x / side c ∧ x / side c < a + 1 + n) ∧ y / side c = row
    · rw [if_pos h1, if_pos (by omega)]
    · rw [if_neg h1]
      by_cases h2 : inMB (side c) row a x y
      · rw [if_pos h2, if_pos ⟨by have := h2.1; omega, h2.2⟩]
      · rw [if_neg h2, if_neg]
        intro h3
        unfold inMB at h2
        omega

/-- the slice of a row -/
def rowSlice (C : Coeffs) (W row : Nat) : SliceData := ⟨row, 1, none, (List.range' 0 W).map (mbAt C row)⟩

theorem slice_fine {e : PicEnv} (he : Fine e) (r : RefPics) {C : Coeffs} (hC : InRange C) {W H row : Nat} (hW : 0 < W)
    (hr : row < H) (hr' : row < 175) (P : Image) :
    (∃ bits, SliceCode e r W H P (rowSlice C W row) bits) ∧ ∀ c x y, (rowSlice C W row).image e r P c x y =
      if x / side c < W ∧ y / side c = row then target C c x y else P c x y := by
  have g : Good ((rowSlice C W row).start e P) := by
    refine ⟨fun c => ?_, rfl⟩
    show 0 ≤ dcReset e.pce.intraDCPrecision c ∧ dcReset e.pce.intraDCPrecision c ≤ 2047
    rw [he.precision]
    show (0 : Int) ≤ 2 ^ (7 + 3) ∧ (2 : Int) ^ (7 + 3) ≤ 2047
    decide
  obtain ⟨⟨bits, hb⟩, hp⟩ := mbs_fine he r hC (W := W) (H := H) (row := row) W 0 _ (by omega) g
  refine ⟨⟨_, hr, hr', by show 1 < 32; decide, fun i h => (by cases h), ?_, bits, hb, rfl⟩, ?_⟩
  · intro h
    have := congrArg List.length h
    rw [rowSlice, List.length_map, List.length_range'] at this
    exact absurd this (by simp only [List.length_nil]; omega)
  · intro c x y
    refine (hp c x y).trans ?_
    by_cases h : x / side c < W ∧ y / side c = row
    · rw [if_pos h, if_pos ⟨⟨Nat.zero_le _, by rw [Nat.zero_add]; exact h.1⟩, h.2⟩]
    · rw [if_neg h, if_neg fun hh => h ⟨by have := hh.1.2; rwa [Nat.zero_add] at this, hh.2⟩]
      rfl

theorem slices_fine {e : PicEnv} (he : Fine e) (r : RefPics) {C : Coeffs} (hC : InRange C) {W H : Nat} (hW : 0 < W)
    (hH : H ≤ 175) : ∀ (n row pos : Nat) (P : Image), row + n ≤ H →
      (∃ bits, SlicesCode e r W H pos P ((List.range' row n).map (rowSlice C W)) bits) ∧
      ∀ c x y, slicesImage e r P ((List.range' row n).map (rowSlice C W)) c x y =
        if x / side c < W ∧ (row ≤ y / side c ∧ y / side c < row + n) then target C c x y else P c x y
  | 0, row, pos, P, _ => ⟨⟨[], .nil⟩, fun c x y => by
      rw [if_neg (by omega)]
      rfl⟩
  | n + 1, row, pos, P, h => by
    obtain ⟨⟨b, hb⟩, hp⟩ := slice_fine he r hC hW (row := row) (H := H) (by omega) (by omega) P
    obtain ⟨⟨bs, hbs⟩, hps⟩ := slices_fine he r hC hW hH n (row + 1) (pos + b.length + padding (pos + b.length) + 8 * 0)
      ((rowSlice C W row).image e r P) (by omega)
    rw [List.range'_succ, List.map_cons]
    refine ⟨⟨_, .cons 0 hb hbs⟩, ?_⟩
    intro c x y
    show slicesImage e r ((rowSlice C W row).image e r P) _ c x y = _
    rw [hps c x y, hp c x y]
    by_cases h1 : x / side c < W ∧ (row + 1 ≤ y / side c ∧ y / side c < row + 1 + n)
    · rw [if_pos h1, if_pos (by omega)]
    · rw [if_neg h1]
      by_cases h2 : x / side c < W ∧ y / side c = row
      · rw [if_pos h2, if_pos (by omega)]
      · rw [if_neg h2, if_neg (by omega)]

end Mpeg.Video.Universal
