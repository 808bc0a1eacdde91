/-
The decoder refines the reference decoder: slices and pictures.
-/
import Verif.Video.RefLemmas4
import Verif.Video.PicSpec
import Verif.Video.HeaderLemmas2
import Verif.Video.FrameProps
namespace Mpeg.Video
open Spec

variable {stop : Err} {later : List (List Bool × Err)}

/-! ### looking ahead -/

theorem natOfBits_true : ∀ {l : List Bool}, true ∈ l → natOfBits l ≠ 0
  | [], h => by simp at h
  | b :: l, h => by
    cases b with
    | true =>
      have := Nat.two_pow_pos l.length
      simp only [natOfBits, Bool.toNat_true, Nat.one_mul]
      omega
    | false =>
      have h' : true ∈ l := by simpa using h
      have := natOfBits_true h'
      simpa [natOfBits] using this

/-- A macroblock begins with a one among its first eleven bits. -/
theorem mb_true {e : PicEnv} {d : DState} {m : MbData} (c : MbCode e d m) (r : List Bool) :
    true ∈ (c.bits ++ r).take 23 := by
  have k1 : isoAddress.all (fun x => decide (true ∈ x.1 ∧ x.1.length ≤ 11)) = true := by decide +kernel
  have k2 := of_decide_eq_true (List.all_eq_true.1 k1 _ c.hAddr)
  have hpre : ∃ w t, c.bits ++ r = w ++ t ∧ true ∈ w ∧ w.length ≤ 11 := by
    unfold MbCode.bits
    cases hk : c.k with
    | zero =>
      exact ⟨c.addr, _, List.append_assoc c.addr _ r, k2.1, k2.2⟩
    | succ k =>
      exact ⟨addressEscape, _, (congrArg (· ++ r) (List.append_assoc addressEscape (escapes k) _)).trans
        (List.append_assoc addressEscape _ r), by decide, by decide⟩
  obtain ⟨w, t, hw, h1, h2⟩ := hpre
  rw [hw, List.take_append]
  exact List.mem_append_left _ (by rw [List.take_of_length_le (by omega)]; exact h1)

theorem mbCode_ne_nil {e : PicEnv} {d : DState} {m : MbData} (c : MbCode e d m) : 1 ≤ c.bits.length := by
  have := mb_true c []
  rw [List.append_nil] at this
  cases h : c.bits with
  | nil => rw [h] at this; simp at this
  | cons => simp

/-! ### macroblocks of a slice -/

theorem mb_qsc {e : PicEnv} {r : RefPics} {row : Nat} {a : Option Nat} {d : DState} {m : MbData} {d' : DState}
    (code : MbCode e d' m) (h : d.qsc < 32) : (d.mb e r row a m).qsc < 32 := by
  show (if m.type.quant then m.q else (d.skip e r row a m.incr).qsc) < 32
  split
  · exact code.hQ
  · unfold DState.skip; split <;> exact h

theorem mbLoop_run {e : PicEnv} (hc : Covered e) {r : RefPics} {W H row : Nat} {F : Prop} (hrr : RefsIf F W H e r)
    (h2F : e.ph.pictureCodingType = 2 → F) (s1 : Samples r.past) (s2 : Samples r.future) (hr : row < H) {rest : List Bool} (hz : ∃ t, rest = zeros 23 ++ t) :
    ∀ (ms : List MbData) (a : Option Nat) (d : DState) (bits : List Bool), MbsCode e r W H row a d ms bits → ms ≠ [] →
      (d.fwd = true → F) → (∀ m ∈ ms, m.type.forward = true → F) →
      ∀ (fuel pos : Nat) (s : MB), bits.length ≤ fuel → d.qsc < 32 → Rel W H s d →
      s.br = ⟨bits ++ rest, pos, stop, later⟩ →
      ∃ s', mbLoop e row fuel a s = (.ok (), s') ∧ s'.br = ⟨rest, pos + bits.length, stop, later⟩ ∧
        Rel W H s' (DState.mbs e r row a d ms) := by
  intro ms
  induction ms with
  | nil => intro a d bits _ h; exact absurd rfl h
  | cons m ms ih =>
    intro a d bits hb _ hF hmF fuel pos s hf hq hrel hbr
    have hrl : 23 ≤ rest.length := by obtain ⟨t, rfl⟩ := hz; simp [zeros]
    cases hb with
    | @cons _ _ _ _ bits hl code hmore =>
      rw [List.append_assoc] at hbr
      obtain ⟨s', h1, h2, h3⟩ := macroblock_run hc hrr hF h2F (hmF m List.mem_cons_self) s1 s2 hrel hr hq hl code (bits ++ rest)
        (by simp only [List.length_append]; omega) pos hbr
      have hne := mbCode_ne_nil code
      rw [List.length_append] at hf
      obtain ⟨fuel, rfl⟩ : ∃ f, fuel = f + 1 := ⟨fuel - 1, by omega⟩
      unfold mbLoop
      rw [Go.bind_ok h1]
      have hp : MB.lift (BR.peek 23) s' = (.ok (natOfBits ((bits ++ rest).take 23)), s') := by
        have : BR.peek 23 s'.br = (.ok (natOfBits ((bits ++ rest).take 23)), s'.br) := by
          rw [h2]; exact BR.peek_ok (by simp only [List.length_append]; omega)
        exact mlift_run this
      rw [Go.bind_ok hp]
      cases ms with
      | nil =>
        cases hmore
        obtain ⟨t, rfl⟩ := hz
        have h0 : natOfBits (([] ++ (zeros 23 ++ t)).take 23) = 0 := by
          rw [List.nil_append, List.take_append_of_le_length (by simp [zeros]), List.take_of_length_le (by simp [zeros])]
          exact natOfBits_zeros 23
        rw [if_pos h0]
        exact ⟨s', rfl, by rw [h2]; simp, h3⟩
      | cons m2 ms2 =>
        have h0 : natOfBits ((bits ++ rest).take 23) ≠ 0 := by
          cases hmore with
          | cons hl2 code2 hm2 =>
            rw [List.append_assoc]
            exact natOfBits_true (mb_true code2 _)
        rw [if_neg h0]
        obtain ⟨s'', g1, g2, g3⟩ := ih _ _ _ hmore (by simp) (fwd_mb h2F (hmF m List.mem_cons_self))
          (fun m hm => hmF m (List.mem_cons_of_mem _ hm)) fuel _ s' (by omega) (mb_qsc code hq) h3 h2
        exact ⟨s'', g1, by rw [g2]; simp only [List.length_append, BR.mk.injEq, true_and, and_true]; omega, g3⟩

/-! ### slice -/

theorem extra_length (l : List Nat) : (encExtra l).length = 9 * l.length + 1 := by
  unfold encExtra; rw [List.length_append, length_extra]; rfl

theorem sliceHeader_run {e : PicEnv} {sl : SliceData} (hq : sl.q < 32)
    (hi : ∀ i, sl.info = some i → ∀ x ∈ i.2, x < 256) (r : List Bool) (pos : Nat) :
    sliceHeader e.sh.verticalSizeValue ⟨sl.fields e ++ r, pos, stop, later⟩ =
      (.ok sl.q, ⟨r, pos + (sl.fields e).length, stop, later⟩) := by
  unfold SliceData.fields sliceHeader
  obtain ⟨p, hp⟩ : ∃ p : List Bool, p = if 2800 < e.sh.verticalSizeValue then bitsOf 3 0 else [] := ⟨_, rfl⟩
  have h1 : ∀ t, ∃ v, Go.opt (decide (2800 < e.sh.verticalSizeValue)) 0 (BR.read 3) ⟨p ++ t, pos, stop, later⟩ =
      (.ok v, ⟨t, pos + p.length, stop, later⟩) := by
    intro t
    by_cases h : 2800 < e.sh.verticalSizeValue
    · rw [if_pos h] at hp
      subst hp
      exact ⟨_, by rw [decide_eq_true h, opt_true, BR.read_bitsOf]; rfl⟩
    · rw [if_neg h] at hp
      subst hp
      exact ⟨0, by rw [decide_eq_false h]; rfl⟩
  rw [← hp]
  simp only [List.append_assoc]
  obtain ⟨v, h1⟩ := h1 (bitsOf 5 sl.q ++ (infoBits sl.info ++ r))
  rw [Go.bind_ok h1, Go.bind_ok (BR.read_bitsOf 5 sl.q), Nat.mod_eq_of_lt (show sl.q < 2 ^ 5 from hq)]
  cases hinfo : sl.info with
  | none =>
    dsimp only [infoBits]
    have h2 : BR.peek 1 ⟨[false] ++ r, pos + p.length + 5, stop, later⟩ =
        (.ok 0, ⟨[false] ++ r, pos + p.length + 5, stop, later⟩) := BR.peek_bitsOf 1 0
    rw [Go.bind_ok h2]
    have h3 : BR.skip 1 ⟨[false] ++ r, pos + p.length + 5, stop, later⟩ =
        (.ok (), ⟨r, pos + p.length + 5 + 1, stop, later⟩) := BR.skip_bitsOf 1 0
    have h4 : Go.opt ((0 : Nat) == 1) () (do
        let _ ← BR.read1
        let _ ← BR.read1
        let r ← BR.read 7
        Go.check (r == 0) .invalidReservedBits
        let _ ← readExtraInformation
        pure ()) ⟨[false] ++ r, pos + p.length + 5, stop, later⟩ =
        (.ok (), ⟨[false] ++ r, pos + p.length + 5, stop, later⟩) := rfl
    rw [Go.bind_ok h4, Go.bind_ok h3, Go.pure_apply]
    simp only [List.length_append, length_bitsOf, List.length_cons, List.length_nil, Prod.mk.injEq, BR.mk.injEq, true_and,
      and_true]
    omega
  | some i =>
    dsimp only [infoBits]
    obtain ⟨b, l⟩ := i
    dsimp only
    have hr : true :: b :: (bitsOf 7 0 ++ encExtra l) ++ r = true :: b :: (bitsOf 7 0 ++ (encExtra l ++ r)) := by
      simp only [List.cons_append, List.append_assoc]
    rw [hr]
    have h2 : BR.peek 1 ⟨true :: b :: (bitsOf 7 0 ++ (encExtra l ++ r)), pos + p.length + 5, stop, later⟩ =
        (.ok 1, ⟨true :: b :: (bitsOf 7 0 ++ (encExtra l ++ r)), pos + p.length + 5, stop, later⟩) :=
      BR.peek_bitsOf 1 1
    rw [Go.bind_ok h2]
    have h4 : Go.opt ((1 : Nat) == 1) () (do
        let _ ← BR.read1
        let _ ← BR.read1
        let r ← BR.read 7
        Go.check (r == 0) .invalidReservedBits
        let _ ← readExtraInformation
        pure ()) ⟨true :: b :: (bitsOf 7 0 ++ (encExtra l ++ r)), pos + p.length + 5, stop, later⟩ =
        (.ok (), ⟨false :: r, pos + p.length + 5 + 1 + 1 + 7 + 9 * l.length, stop, later⟩) := by
      rw [show ((1 : Nat) == 1) = true from rfl, opt_true, Go.bind_ok (BR.read1_cons _), Go.bind_ok (BR.read1_cons _),
        Go.bind_ok (BR.read_bitsOf 7 0)]
      have h5 : Go.check ((0 % 2 ^ 7 : Nat) == 0) Err.invalidReservedBits
          (⟨encExtra l ++ r, pos + p.length + 5 + 1 + 1 + 7, stop, later⟩ : BR) =
          (.ok (), ⟨encExtra l ++ r, pos + p.length + 5 + 1 + 1 + 7, stop, later⟩) := rfl
      rw [Go.bind_ok h5, Go.bind_ok (readExtra_enc l (hi _ hinfo)), Go.pure_apply]
    rw [Go.bind_ok h4]
    have h3 : BR.skip 1 ⟨false :: r, pos + p.length + 5 + 1 + 1 + 7 + 9 * l.length, stop, later⟩ =
        (.ok (), ⟨r, pos + p.length + 5 + 1 + 1 + 7 + 9 * l.length + 1, stop, later⟩) := BR.skip_bitsOf 1 0
    rw [Go.bind_ok h3, Go.pure_apply]
    simp only [List.length_append, length_bitsOf, List.length_cons, extra_length, Prod.mk.injEq, BR.mk.injEq, true_and,
      and_true]
    omega

theorem zeros_append (a b : Nat) : zeros a ++ zeros b = zeros (a + b) := by simp [zeros]

theorem start_rel {e : PicEnv} {W H : Nat} {s : MB} {P : Image} (hf : Shows W H s.frame P) (sl : SliceData) (b : BR) :
    Rel W H { s with br := b, dcp := DcPred.reset e.pce.intraDCPrecision, mvd := MVD.init, qsc := sl.q } (sl.start e P) :=
  ⟨hf, fun _ _ => reset_get _ _, ⟨fun _ _ _ _ => rfl, fun _ _ _ _ => rfl, rfl, rfl⟩, rfl⟩

theorem slice_run {e : PicEnv} (hc : Covered e) {r : RefPics} {W H : Nat} {F : Prop} (hrr : RefsIf F W H e r)
    (h2F : e.ph.pictureCodingType = 2 → F)
    (s1 : Samples r.past) (s2 : Samples r.future) {P : Image} {sl : SliceData} (hmF : ∀ m ∈ sl.mbs, m.type.forward = true → F)
    {bits : List Bool}
    (h : SliceCode e r W H P sl bits) (k : Nat) (rest : List Bool) {s : MB} {pos : Nat} (hf : Shows W H s.frame P)
    (hbr : s.br = ⟨bits ++ (zeros (padding (pos + bits.length)) ++ (zeros (8 * k) ++ (prefix1 ++ rest))), pos, stop,
      later⟩) :
    ∃ s', slice e s = (.ok (), s') ∧ Shows W H s'.frame (sl.image e r P) ∧
      s'.br = ⟨prefix1 ++ rest, pos + bits.length + padding (pos + bits.length) + 8 * k, stop, later⟩ := by
  obtain ⟨body, hb, hbits⟩ := h.body
  obtain ⟨tl, htl⟩ : ∃ tl : Tail, tl = ⟨zeros (padding (pos + bits.length)), k, rest⟩ := ⟨_, rfl⟩
  have hbr' : s.br = ⟨bitsOf 32 (0x101 + sl.row) ++ (sl.fields e ++ (body ++ tl.bits)), pos, stop, later⟩ := by
    rw [hbr, htl, hbits]
    simp only [SliceData.head, Tail.bits, List.append_assoc]
  have hm := h.maxRow
  have hc1 : (0x101 + sl.row) % 2 ^ 32 = 0x101 + sl.row := Nat.mod_eq_of_lt (by omega)
  have e1 : MB.lift (BR.read 32) s = (.ok (0x101 + sl.row),
      { s with br := ⟨sl.fields e ++ (body ++ tl.bits), pos + 32, stop, later⟩ }) := by
    refine mlift_run ?_
    rw [hbr', BR.read_bitsOf, hc1]
  have e2 : Go.check (isSlice (0x101 + sl.row)) Err.unexpectedStartCode
      { s with br := ⟨sl.fields e ++ (body ++ tl.bits), pos + 32, stop, later⟩ } =
      (.ok (), { s with br := ⟨sl.fields e ++ (body ++ tl.bits), pos + 32, stop, later⟩ }) := by
    rw [show isSlice (0x101 + sl.row) = true by
      unfold isSlice minSliceStartCode maxSliceStartCode
      simp only [Bool.and_eq_true, decide_eq_true_eq]; omega]
    rfl
  have hrow : (0x101 + sl.row) % 256 - 1 = sl.row := by omega
  obtain ⟨g1, g2, g3, g4, g5⟩ := hf.1
  have hH := h.row
  have e3 : ¬ (s.frame.y.len < 16 * sl.row * s.frame.yStride ∨ s.frame.cb.len < 8 * sl.row * s.frame.cStride ∨
      s.frame.cr.len < 8 * sl.row * s.frame.cStride) := by
    rw [g1, g2, g3, g4, g5]
    have m1 : 16 * sl.row * (16 * W) ≤ 16 * W * (16 * H) := by
      rw [Nat.mul_comm (16 * W)]; exact Nat.mul_le_mul_right _ (by omega)
    have m2 : 8 * sl.row * (8 * W) ≤ 8 * W * (8 * H) := by
      rw [Nat.mul_comm (8 * W)]; exact Nat.mul_le_mul_right _ (by omega)
    omega
  have e4 : MB.lift (sliceHeader e.sh.verticalSizeValue)
      { s with br := ⟨sl.fields e ++ (body ++ tl.bits), pos + 32, stop, later⟩ } =
      (.ok sl.q, { s with br := ⟨body ++ tl.bits, pos + 32 + (sl.fields e).length, stop, later⟩ }) :=
    mlift_run (sliceHeader_run h.q h.info _ _)
  have hz : ∃ t, tl.bits = zeros 23 ++ t := by
    rw [htl]
    refine ⟨zeros (padding (pos + bits.length) + 8 * k) ++ (true :: rest), ?_⟩
    simp only [Tail.bits, prefix1, List.append_assoc, List.cons_append, List.nil_append]
    rw [← List.append_assoc (zeros _) (zeros _), zeros_append, ← List.append_assoc, zeros_append,
      ← List.append_assoc, zeros_append]
    congr 2; omega
  obtain ⟨s', l1, l2, l3⟩ := mbLoop_run (stop := stop) (later := later) hc hrr h2F s1 s2 h.row hz _ _ _ _ hb h.nonempty
    (fun h => (by cases h)) hmF
    (fuelOf ⟨body ++ tl.bits, pos + 32 + (sl.fields e).length, stop, later⟩) (pos + 32 + (sl.fields e).length)
    { s with
      br := ⟨body ++ tl.bits, pos + 32 + (sl.fields e).length, stop, later⟩
      dcp := DcPred.reset e.pce.intraDCPrecision, mvd := MVD.init, qsc := sl.q }
    (by unfold fuelOf; simp only [List.length_append]; omega) h.q (start_rel hf sl _) rfl
  have hlen : pos + 32 + (sl.fields e).length + body.length = pos + bits.length := by
    rw [hbits]; simp only [SliceData.head, List.length_append, length_bitsOf]; omega
  rw [hlen] at l2
  have e5 : nextStartCode s'.br = (.ok (), tl.after (pos + bits.length) stop later) := by
    rw [l2]
    exact nextStartCode_tail tl (by rw [htl]; simp [Tail.OK, zeros])
  refine ⟨{ s' with br := tl.after (pos + bits.length) stop later }, ?_, l3.frame, ?_⟩
  · unfold slice
    rw [Go.bind_ok e1, Go.bind_ok e2, Go.bind_ok (Go.get_apply _), hrow, if_neg e3, Go.bind_ok e4, Go.bind_ok (Go.modify_apply _ _)]
    have l1' : mbLoopAll e sl.row { s with
      br := ⟨body ++ tl.bits, pos + 32 + (sl.fields e).length, stop, later⟩
      dcp := DcPred.reset e.pce.intraDCPrecision, mvd := MVD.init, qsc := sl.q } = (.ok (), s') := l1
    rw [Go.bind_ok l1']
    exact mlift_run e5
  · rw [htl]
    simp [Tail.after, zeros]

/-! ### pictures -/

theorem code32_bits {c : Nat} (h : c < 256) : bitsOf 32 (0x100 + c) = prefix1 ++ bitsOf 8 c := by
  rw [prefix1_eq]
  have := bitsOf_add_mul 24 8 1 c (show c < 2 ^ 8 from h)
  rw [← this]

theorem padding_zero {n : Nat} : padding (n + padding n) = 0 := by
  unfold padding; omega

theorem slices_start {e : PicEnv} {r : RefPics} {W H pos : Nat} {P : Image} {sl : SliceData} {sls : List SliceData}
    {bits : List Bool} (h : SlicesCode e r W H pos P (sl :: sls) bits) :
    sl.row < 175 ∧ ∃ t, bits = prefix1 ++ (bitsOf 8 (1 + sl.row) ++ t) := by
  cases h with
  | cons k hs _ =>
    obtain ⟨b, _, hb⟩ := hs.body
    have hm := hs.maxRow
    refine ⟨hm, ?_⟩
    rw [hb, SliceData.head, show 0x101 + sl.row = 0x100 + (1 + sl.row) by omega, code32_bits (by omega)]
    simp only [List.append_assoc]
    exact ⟨_, rfl⟩

theorem slices_pos {e : PicEnv} {r : RefPics} {W H : Nat} : ∀ {sls : List SliceData} {pos : Nat} {P : Image}
    {bits : List Bool}, SlicesCode e r W H pos P sls bits → sls ≠ [] → padding (pos + bits.length) = 0
  | [], _, _, _, _, h => absurd rfl h
  | sl :: sls, pos, P, _, h, _ => by
    cases h with
    | @cons _ _ _ _ bits more k hs hm =>
      simp only [List.length_append, zeros, List.length_replicate]
      cases sls with
      | nil =>
        cases hm
        unfold padding
        simp only [List.length_nil]
        omega
      | cons sl2 sls =>
        have := slices_pos hm (by simp)
        rw [← this]
        congr 1
        omega

theorem slices_length {e : PicEnv} {r : RefPics} {W H : Nat} : ∀ {sls : List SliceData} {pos : Nat} {P : Image}
    {bits : List Bool}, SlicesCode e r W H pos P sls bits → sls.length ≤ bits.length
  | [], _, _, _, _ => by simp
  | sl :: sls, pos, P, _, h => by
    obtain ⟨_, t, ht⟩ := slices_start h
    cases h with
    | @cons _ _ _ _ bits more k hs hm =>
      have h1 := slices_length hm
      obtain ⟨b, _, hb⟩ := hs.body
      have h2 : 1 ≤ bits.length := by
        rw [hb, SliceData.head, List.length_append, List.length_append, length_bitsOf]; omega
      simp only [List.length_append, List.length_cons]
      omega

theorem isSlice_code {c : Nat} (h : c < 256) : isSlice (0x100 + c) = decide (1 ≤ c ∧ c ≤ 0xAF) := by
  unfold isSlice minSliceStartCode maxSliceStartCode
  by_cases h1 : 1 ≤ c ∧ c ≤ 0xAF
  · rw [decide_eq_true h1]; simp only [Bool.and_eq_true, decide_eq_true_eq]; omega
  · rw [decide_eq_false h1, Bool.and_eq_false_iff]; simp only [decide_eq_false_iff_not]; omega

theorem sliceLoop_run {e : PicEnv} (hc : Covered e) {r : RefPics} {W H : Nat} {F : Prop} (hrr : RefsIf F W H e r)
    (h2F : e.ph.pictureCodingType = 2 → F) (s1 : Samples r.past) (s2 : Samples r.future) {c : Nat} (hc8 : c < 256) (hcs : ¬ (1 ≤ c ∧ c ≤ 0xAF))
    (rest : List Bool) :
    ∀ (sls : List SliceData) (pos : Nat) (P : Image) (bits : List Bool), SlicesCode e r W H pos P sls bits → sls ≠ [] →
      (∀ sl ∈ sls, ∀ m ∈ sl.mbs, m.type.forward = true → F) → ∀ (fuel : Nat) (s : MB), sls.length ≤ fuel → Shows W H s.frame P →
      s.br = ⟨bits ++ (prefix1 ++ (bitsOf 8 c ++ rest)), pos, stop, later⟩ →
      ∃ s', sliceLoop e fuel s = (.ok (), s') ∧ Shows W H s'.frame (slicesImage e r P sls) ∧
        s'.br = ⟨prefix1 ++ (bitsOf 8 c ++ rest), pos + bits.length, stop, later⟩ := by
  intro sls
  induction sls with
  | nil => intro _ _ _ _ h; exact absurd rfl h
  | cons sl sls ih =>
    intro pos P bits h _ hmF fuel s hf hfr hbr
    obtain ⟨fuel, rfl⟩ : ∃ f, fuel = f + 1 := ⟨fuel - 1, by simp only [List.length_cons] at hf; omega⟩
    cases h with
    | @cons _ _ _ _ bits more k hs hm =>
      obtain ⟨c', t, hc', hmt, hsc⟩ : ∃ c' t, c' < 256 ∧
          more ++ (prefix1 ++ (bitsOf 8 c ++ rest)) = prefix1 ++ (bitsOf 8 c' ++ t) ∧
          ((sls = [] ∧ c' = c ∧ t = rest) ∨ (sls ≠ [] ∧ 1 ≤ c' ∧ c' ≤ 0xAF)) := by
        cases sls with
        | nil => cases hm; exact ⟨c, rest, hc8, rfl, .inl ⟨rfl, rfl, rfl⟩⟩
        | cons sl2 sls2 =>
          obtain ⟨h1, t, h2⟩ := slices_start hm
          refine ⟨1 + sl2.row, t ++ (prefix1 ++ (bitsOf 8 c ++ rest)), by omega, ?_, .inr ⟨by simp, by omega, by omega⟩⟩
          rw [h2]; simp only [List.append_assoc]
      have hbr' : s.br = ⟨bits ++ (zeros (padding (pos + bits.length)) ++ (zeros (8 * k) ++
          (prefix1 ++ (bitsOf 8 c' ++ t)))), pos, stop, later⟩ := by
        rw [hbr, ← hmt]; simp only [List.append_assoc]
      obtain ⟨s', g1, g2, g3⟩ := slice_run hc hrr h2F s1 s2 (hmF sl List.mem_cons_self) hs k _ hfr hbr'
      unfold sliceLoop
      rw [Go.bind_ok g1]
      have hp : MB.lift (BR.peek 32) s' = (.ok (0x100 + c'), s') := by
        have : BR.peek 32 s'.br = (.ok (0x100 + c'), s'.br) := by
          rw [g3, ← List.append_assoc, ← code32_bits hc', BR.peek_bitsOf, Nat.mod_eq_of_lt (by omega)]
        exact mlift_run this
      rw [Go.bind_ok hp, isSlice_code hc']
      rcases hsc with ⟨rfl, rfl, rfl⟩ | ⟨hne, h1, h2⟩
      · rw [decide_eq_false hcs]
        cases hm
        refine ⟨s', rfl, g2, ?_⟩
        rw [g3]
        simp [zeros]; omega
      · rw [decide_eq_true ⟨h1, h2⟩]
        rw [← hmt] at g3
        obtain ⟨s'', f1, f2, f3⟩ := ih _ _ _ hm hne (fun sl hs => hmF sl (List.mem_cons_of_mem _ hs)) fuel s' (by simp only [List.length_cons] at hf; omega) g2 g3
        refine ⟨s'', f1, f2, ?_⟩
        rw [f3]
        simp [zeros]; omega

theorem created_blank (w h : Nat) : Shows ((w + 15) / 16) ((h + 15) / 16) (createFrameBuffer w h 1) blank := by
  refine ⟨C53_created w h, fun c x y _ _ _ => ?_⟩
  unfold sampleOf pixY pixCb pixCr createFrameBuffer
  simp only [true_or, ↓reduceIte, Plane.zero, blank]
  split
  · rfl
  · split <;> rfl

/-- The environment of a picture. -/
def VS.env (s : VS) (sh : SequenceHeader) (se : SequenceExtension) (ph : PictureHeader) (pce : PictureCodingExtension) :
    PicEnv := ⟨sh, se, ph, pce, s.qm, s.fs.past, s.fs.future⟩

theorem pictureData_run {s : VS} {sh : SequenceHeader} {se : SequenceExtension} {ph : PictureHeader}
    {pce : PictureCodingExtension} (h1 : s.sh = some sh) (h2 : s.se = some se) (h3 : s.ph = some ph)
    (h4 : s.pce = some pce) {r : RefPics} {W H : Nat} (hW : W = (s.size.1.toNat + 15) / 16)
    (hH : H = (s.size.2.toNat + 15) / 16) (hc : Covered (s.env sh se ph pce)) {F : Prop}
    (hrr : RefsIf F W H (s.env sh se ph pce) r) (h2F : ph.pictureCodingType = 2 → F)
    (s1 : Samples r.past) (s2 : Samples r.future) {c : Nat} (hc8 : c < 256) (hcs : ¬ (1 ≤ c ∧ c ≤ 0xAF))
    {sls : List SliceData} (hmF : ∀ sl ∈ sls, ∀ m ∈ sl.mbs, m.type.forward = true → F)
    {bits rest : List Bool} {pos : Nat} (hne : sls ≠ [])
    (hcode : SlicesCode (s.env sh se ph pce) r W H pos blank sls bits)
    (hbr : s.br = ⟨bits ++ (prefix1 ++ (bitsOf 8 c ++ rest)), pos, stop, later⟩) :
    ∃ f, pictureData s = (.ok f, { s with br := ⟨prefix1 ++ (bitsOf 8 c ++ rest), pos + bits.length, stop, later⟩ }) ∧
      Shows W H f (slicesImage (s.env sh se ph pce) r blank sls) := by
  have hshow := created_blank s.size.1.toNat s.size.2.toNat
  rw [← hW, ← hH] at hshow
  obtain ⟨m', g1, g2, g3⟩ := sliceLoop_run (stop := stop) (later := later) hc hrr h2F s1 s2 hc8 hcs rest sls pos blank bits
    hcode hne hmF (fuelOf s.br)
    ⟨s.br, DcPred.reset pce.intraDCPrecision, MVD.init, 0, createFrameBuffer s.size.1.toNat s.size.2.toNat 1⟩
    (by
      have := slices_length hcode
      rw [hbr]; unfold fuelOf; simp only [List.length_append]; omega) hshow hbr
  have g4 : nextStartCode m'.br = (.ok (), m'.br) := by
    rw [g3]
    have := nextStartCode_tail (stop := stop) (later := later) (pos := pos + bits.length) ⟨[], 0, bitsOf 8 c ++ rest⟩
      (by unfold Tail.OK; rw [slices_pos hcode hne]; rfl)
    simpa [Tail.bits, Tail.after, zeros] using this
  refine ⟨m'.frame, ?_, g2⟩
  unfold pictureData
  rw [h1, h2, h3, h4]
  dsimp only
  have hcf : se.chromaFormat = 1 := hc.chroma
  rw [hcf]
  have g5 : (do sliceLoop (s.env sh se ph pce) (fuelOf s.br); MB.lift nextStartCode : Go MB Unit)
      ⟨s.br, DcPred.reset pce.intraDCPrecision, MVD.init, 0, createFrameBuffer s.size.1.toNat s.size.2.toNat 1⟩ =
      (.ok (), m') := by
    rw [Go.bind_ok g1]
    exact mlift_run g4
  unfold VS.env at g5
  rw [g5]
  dsimp only
  rw [g3]

end Mpeg.Video
