/-
Panics of slices and pictures, with the vectors.
-/
import Verif.Video.PanicLemmas7
set_option linter.all false
namespace Mpeg.Video
open Spec
open _root_.Mpeg.BR (Took)

/-! ### macroblocks with their addresses and vectors -/

/-- A macroblock after the one at `addr`, at address `a`, from the vectors `V` to `V'`. -/
def MbTo (e : PicEnv) (addr : Option Nat) (V : Vecs) (a : Nat) (V' : Vecs) (l : List Bool) : Prop :=
  (∃ t n cbp field head pat blocks, l = head ++ (pat ++ blocks) ∧ HeadTo e V t n field V' head ∧
    (if t.pattern then (pat, cbp) ∈ isoCbp else pat = []) ∧
    BlocksWord t.intra e.pce.intraVLCFormat (fun i => t.intra || (t.pattern && codedBlock cbp i)) 6 0 blocks ∧
    a = place addr n) ∨
  (∃ t n field head, l = head ++ zeros 9 ∧ HeadTo e V t n field V' head ∧ t.pattern = true ∧ a = 0)

theorem finish_mvd {e : PicEnv} {row a a' : Nat} {m : Mode} {cbp : Nat} {s s' : MB} (h : mbFinish e row a m cbp s = (.ok a', s')) :
    s'.mvd = s.mvd :=
  keeps_ok (keeps_mbFinish (P := fun d => d = s.mvd) e row a m cbp) rfl h

theorem mbTo_fwd {e : PicEnv} (he : Plain e) {l r : List Bool} {s : MB} {row a : Nat} {addr : Option Nat} {V' : Vecs}
    (hl : MbTo e addr s.mvd.vecs a V' l) (hb : s.br.bits = l ++ r) (hr : 24 ≤ r.length) :
    (macroblock e row addr s).1 = .panic ∨
      ∃ s', macroblock e row addr s = (.ok a, s') ∧ s'.mvd.vecs = V' ∧ Took s.br l s'.br := by
  rw [macroblock_split]
  rcases hl with ⟨t, n, cbp, field, head, pat, blocks, rfl, h, hPat, hBlocks, rfl⟩ | ⟨t, n, field, head, rfl, h, hp, rfl⟩
  · rcases (rg_head he row addr).fwd head (t, n, field) V' s (pat ++ blocks ++ r) h (by rw [hb]; simp)
      (by simp only [List.length_append]; omega) with hp | ⟨x, s1, h1, hx, hV, t1⟩
    · exact .inl (Reads.bind_panic' hp)
    rw [Go.bind_ok h1, place_eq]
    rw [Prod.mk.injEq, Prod.mk.injEq] at hx
    obtain ⟨rfl, rfl, rfl⟩ := hx
    have hb1 : s1.br.bits = (pat ++ blocks) ++ r := Reads.took_split t1 hb
    unfold mbPattern
    have fin : ∀ (cbp' : Nat) (s2 : MB), s2.br.bits = blocks ++ r → Took s1.br pat s2.br → s2.mvd = s1.mvd →
        BlocksWord x.2.type.intra e.pce.intraVLCFormat (fun i => x.2.type.intra || (x.2.type.pattern && codedBlock cbp' i)) 6 0 blocks →
        (mbFinish e row (place addr x.1) x.2 cbp' s2).1 = .panic ∨
        ∃ s', mbFinish e row (place addr x.1) x.2 cbp' s2 = (.ok (place addr x.1), s') ∧ s'.mvd.vecs = V' ∧
          Took s.br (head ++ (pat ++ blocks)) s'.br := by
      intro cbp' s2 hb2 t2 hm hw
      rcases (reads_finish he row (place addr x.1) x.2 cbp').fwd blocks () s2 r hw hb2 hr with hp | ⟨a, s3, h3, -, t3⟩
      · exact .inl hp
      · refine .inr ⟨s3, ?_, by rw [finish_mvd h3, hm, hV], t1.trans (t2.trans t3)⟩
        have := finish_addr h3
        rw [h3, this]
    cases hp : x.2.type.pattern with
    | true =>
      rw [if_pos rfl]
      rw [hp, if_pos rfl] at hPat
      obtain ⟨s2, h2, t2⟩ := cbp_run hPat (s := s1.br) (r := blocks ++ r) (by rw [hb1, List.append_assoc])
      unfold mbCoded
      rw [he.chroma, mlift_run h2]
      exact fin cbp _ (Reads.took_split t2 hb1) t2 rfl hBlocks
    | false =>
      rw [if_neg (by decide)]
      rw [hp, if_neg (by decide)] at hPat
      subst hPat
      refine fin 0 s1 (by rw [hb1]; simp) (.refl _) rfl (BlocksWord.congr (fun j _ _ => ?_) hBlocks)
      rw [hp]; simp
  · rcases (rg_head he row addr).fwd head (t, n, field) V' s (zeros 9 ++ r) h (by rw [hb]; simp)
      (by simp only [List.length_append]; omega) with hp | ⟨x, s1, h1, hx, hV, t1⟩
    · exact .inl (Reads.bind_panic' hp)
    rw [Go.bind_ok h1]
    rw [Prod.mk.injEq, Prod.mk.injEq] at hx
    obtain ⟨rfl, rfl, rfl⟩ := hx
    have hb1 : s1.br.bits = zeros 9 ++ r := Reads.took_split t1 hb
    unfold mbPattern
    rw [if_pos hp]
    obtain ⟨y, s2, h2, t2⟩ := cbp_dead hb1
    have h3 : MB.lift (codedBlockPattern 1) s1 = (.err y, { s1 with br := s2 }) := by
      unfold MB.lift
      rw [h2]
    unfold mbCoded
    rw [he.chroma, h3]
    exact .inr ⟨_, rfl, hV, t1.trans t2⟩

theorem mbTo_bwd {e : PicEnv} (he : Plain e) {s s' : MB} {a row : Nat} {addr : Option Nat} (hl : s.br.later = [])
    (h : macroblock e row addr s = (.ok a, s')) :
    (∃ l, MbTo e addr s.mvd.vecs a s'.mvd.vecs l ∧ Took s.br l s'.br) ∨ s'.br.bits = [] ∧ s'.br.later = [] := by
  rw [macroblock_split] at h
  obtain ⟨x, s1, h1, h2⟩ := Go.bind_eq_ok h
  obtain ⟨head, hh, t1⟩ := (rg_head he row addr).bwd _ _ _ h1
  rw [place_eq] at h2
  unfold mbPattern at h2
  cases hp : x.2.type.pattern with
  | true =>
    rw [hp, if_pos rfl] at h2
    unfold mbCoded at h2
    rw [he.chroma] at h2
    cases hx : MB.lift (codedBlockPattern 1) s1 with
    | mk r s2 =>
      rw [hx] at h2
      cases r with
      | ok cbp =>
        dsimp only at h2
        obtain ⟨pat, hc, t2⟩ := cbp_inv (mlift_inv hx)
        obtain ⟨blocks, hw, t3⟩ := (reads_finish he row _ x.2 cbp).bwd _ _ _ h2
        refine .inl ⟨_, .inl ⟨x.2.type, x.1, cbp, x.2.dctType, head, pat, blocks, rfl, ?_, by rw [hp, if_pos rfl]; exact hc, hw,
          finish_addr h2⟩, t1.trans (t2.trans t3)⟩
        rw [finish_mvd h2, lift_mvd hx]
        exact hh
      | err y =>
        dsimp only at h2
        have ha : a = 0 := by cases h2; rfl
        have hs : s2 = s' := by cases h2; rfl
        subst hs
        have hx' : codedBlockPattern 1 s1.br = (.err y, s2.br) := mlift_err hx
        have hm : s2.mvd = s1.mvd := by
          unfold MB.lift at hx
          rw [Prod.mk.injEq] at hx
          rw [← hx.2]
        rcases cbp_err (by rw [t1.later, hl]) hx' with t2 | hz
        · refine .inl ⟨_, .inr ⟨x.2.type, x.1, x.2.dctType, head, rfl, ?_, hp, ha⟩, t1.trans t2⟩
          rw [hm]
          exact hh
        · exact .inr hz
      | panic => cases h2
      | hang => cases h2
  | false =>
    rw [hp, if_neg (by decide)] at h2
    obtain ⟨blocks, hw, t3⟩ := (reads_finish he row _ x.2 0).bwd _ _ _ h2
    refine .inl ⟨_, .inl ⟨x.2.type, x.1, 0, x.2.dctType, head, [], blocks, rfl, ?_, by rw [hp, if_neg Bool.false_ne_true], hw,
      finish_addr h2⟩, t1.trans t3⟩
    rw [finish_mvd h2]
    exact hh

/-! ### the macroblock loop -/

theorem mbLoopX_only {e : PicEnv} (he : Plain e) {W H row : Nat} (hp : RefsOK e W H) :
    ∀ (fuel : Nat) (addr : Option Nat) (s : MB), Geometry s.frame W H → s.br.later = [] →
      (mbLoop e row fuel addr s).1 = .panic → ∃ l r, s.br.bits = l ++ r ∧ MbsFaultAt e W H row addr s.mvd.vecs l := by
  intro fuel
  induction fuel with
  | zero => intro addr s _ _ h; cases h
  | succ fuel ih =>
    intro addr s g hlat h
    rw [mbLoop_eq] at h
    rcases Traps.bind_panic_inv h with h | ⟨a, s1, h1, h⟩
    · obtain ⟨l, r, hb, hl⟩ := macroblock_only he hp g h
      exact ⟨l, r, hb, .last addr _ l hl⟩
    · have g1 : Geometry s1.frame W H := keeps_ok (fr_macroblock (keep_geometry e W H) row addr) g h1
      rcases Traps.bind_panic_inv h with h | ⟨v, s2, h2, h6⟩
      · exact absurd h (safe_mlift (BR.safe_peek 23) s1).1
      · obtain ⟨hs, hlen, hv⟩ := BR.peek_inv (mlift_inv h2)
        have e2 : s2 = s1 := by
          rw [mlift_run (BR.peek_ok hlen)] at h2
          cases h2; rfl
        subst e2
        rcases mbTo_bwd he hlat h1 with ⟨l, hl, t⟩ | ⟨hz, -⟩
        · split at h6
          · cases h6
          · obtain ⟨m, r, hb, hm⟩ := ih (some a) s2 g1 (by rw [t.later, hlat]) h6
            refine ⟨l ++ m, r, by rw [t.bits, hb, List.append_assoc], ?_⟩
            rcases hl with ⟨ty, n, cbp, field, head, pat, blocks, rfl, hh, hPat, hBlocks, rfl⟩ | ⟨ty, n, field, head, rfl, hh, hpt, rfl⟩
            · exact .next addr _ _ ty n cbp field head pat blocks m hh hPat hBlocks hm
            · exact .broken addr _ _ ty n field head m hh hpt hm
        · rw [hz] at hlen; simp at hlen

theorem headTo_true {e : PicEnv} {V V' : Vecs} {t : MacroblockType} {n : Nat} {field : Bool} {l : List Bool}
    (h : HeadTo e V t n field V' l) (r : List Bool) : true ∈ (l ++ r).take 23 := by
  cases h with
  | mk start motion f b mark V1 V2 hs hF hB hM => rw [List.append_assoc]; exact headStart_true hs _

theorem mbFaultAt_true {e : PicEnv} {W H row : Nat} {addr : Option Nat} {V : Vecs} {l : List Bool}
    (h : MbFaultAt e W H row addr V l) (r : List Bool) : true ∈ (l ++ r).take 23 := by
  cases h with
  | codingType k v c h _ => rw [List.append_assoc]; exact start_true h
  | skippedP k v a c h _ _ _ _ => rw [List.append_assoc]; exact start_true h
  | skippedB k v a j i c h _ _ _ _ _ _ => rw [List.append_assoc]; exact start_true h
  | noMotion t n field motion _ h _ _ _ => exact headStart_true h r
  | dualPrime t n field motion l x h _ _ => rw [List.append_assoc]; exact headStart_true h _
  | blocks t n cbp field V' head pat l h _ _ => rw [List.append_assoc]; exact headTo_true h _

theorem mbsFaultAt_true {e : PicEnv} {W H row : Nat} {addr : Option Nat} {V : Vecs} {l : List Bool}
    (h : MbsFaultAt e W H row addr V l) (r : List Bool) : true ∈ (l ++ r).take 23 := by
  cases h with
  | last _ _ _ h => exact mbFaultAt_true h r
  | next _ _ V' t n cbp field head pat blocks m h _ _ _ => simp only [List.append_assoc]; exact headTo_true h _
  | broken _ _ V' t n field head m h _ _ => simp only [List.append_assoc]; exact headTo_true h _

theorem mbLoopX_sure {e : PicEnv} (he : Plain e) {W H row : Nat} (hp : RefsOK e W H) {addr : Option Nat} {V : Vecs}
    {l : List Bool} (hl : MbsFaultAt e W H row addr V l) :
    ∀ (fuel : Nat) (s : MB) (r : List Bool), Geometry s.frame W H → s.mvd.vecs = V → s.br.bits = l ++ r → 24 ≤ r.length →
      (mbLoop e row fuel addr s).1 = .panic ∨ (mbLoop e row fuel addr s).1 = .hang := by
  have step : ∀ (addr : Option Nat) (V V' : Vecs) (a : Nat) (l m : List Bool), MbTo e addr V a V' l →
      MbsFaultAt e W H row (some a) V' m →
      (∀ (fuel : Nat) (s : MB) (r : List Bool), Geometry s.frame W H → s.mvd.vecs = V' → s.br.bits = m ++ r → 24 ≤ r.length →
        (mbLoop e row fuel (some a) s).1 = .panic ∨ (mbLoop e row fuel (some a) s).1 = .hang) →
      ∀ (fuel : Nat) (s : MB) (r : List Bool), Geometry s.frame W H → s.mvd.vecs = V → s.br.bits = l ++ m ++ r → 24 ≤ r.length →
      (mbLoop e row fuel addr s).1 = .panic ∨ (mbLoop e row fuel addr s).1 = .hang := by
    intro addr V V' a l m hl hm ih fuel s r g hV hb hr
    cases fuel with
    | zero => exact .inr rfl
    | succ fuel =>
      rw [mbLoop_eq]
      subst hV
      rcases mbTo_fwd (row := row) he hl (r := m ++ r) (by rw [hb, List.append_assoc]) (by rw [List.length_append]; omega) with
        h | ⟨s', h, hV', t⟩
      · exact .inl (Reads.bind_panic' h)
      · have hb' : s'.br.bits = m ++ r := Reads.took_split t hb
        have g' : Geometry s'.frame W H := keeps_ok (fr_macroblock (keep_geometry e W H) row addr) g h
        rw [Go.bind_ok h, Go.bind_ok (mlift_run (BR.peek_ok (by rw [hb', List.length_append]; omega))), hb',
          if_neg (natOfBits_true (mbsFaultAt_true hm r))]
        exact ih fuel s' r g' hV' hb' hr
  induction hl with
  | last addr V l h =>
    intro fuel s r g hV hb hr
    cases fuel with
    | zero => exact .inr rfl
    | succ fuel =>
      rw [mbLoop_eq]
      subst hV
      exact .inl (Reads.bind_panic' (macroblock_sure he hp g h hb hr))
  | next addr V V' t n cbp field head pat blocks m h hPat hBlocks hm ih =>
    exact step addr V V' _ _ m (.inl ⟨t, n, cbp, field, head, pat, blocks, rfl, h, hPat, hBlocks, rfl⟩) hm ih
  | broken addr V V' t n field head m h hpt hm ih =>
    exact step addr V V' 0 _ m (.inr ⟨t, n, field, head, rfl, h, hpt, rfl⟩) hm ih

/-! ### slices -/

theorem front_vecs {e : PicEnv} {s s' : MB} {row : Nat} (h : sliceFront e s = (.ok row, s')) : s'.mvd.vecs = Vecs.zero := by
  unfold sliceFront at h
  obtain ⟨code, s1, h1, h⟩ := Go.bind_eq_ok h
  obtain ⟨u, s2, h2, h⟩ := Go.bind_eq_ok h
  obtain ⟨s3, s4, h3, h⟩ := Go.bind_eq_ok h
  split at h
  · cases h
  · obtain ⟨q, s5, h4, h⟩ := Go.bind_eq_ok h
    obtain ⟨q', s6, h5, h⟩ := Go.bind_eq_ok h
    cases h
    cases h5
    rfl

theorem sliceX_only {e : PicEnv} (he : Plain e) {W H : Nat} (hp : RefsOK e W H) {s : MB}
    (g : Geometry s.frame W H) (hlat : s.br.later = []) (h : (slice e s).1 = .panic) :
    ∃ l r, s.br.bits = l ++ r ∧ SliceFaultAt e W H l := by
  rw [slice_front] at h
  rcases Traps.bind_panic_inv h with h | ⟨row, s1, h1, h⟩
  · obtain ⟨l, r, hb, hl⟩ := (traps_front e W H).only s g h
    obtain ⟨row, h1, h2, h3, rfl⟩ := hl.elim id False.elim
    exact ⟨_, r, hb, .row row h1 h2 h3⟩
  · obtain ⟨l, ⟨head, rfl, hrow, ext, q, info, hhead, hE, hQ, hI⟩, t⟩ := (reads_frontAt e).bwd _ _ _ h1
    have g1 : Geometry s1.frame W H := keeps_ok (fr_front (P := fun f => Geometry f W H) e) g h1
    rcases Traps.bind_panic_inv h with h | ⟨u, s2, h2, h⟩
    · obtain ⟨m, r, hb, hm⟩ := mbLoopX_only he hp _ _ _ g1 (by rw [t.later, hlat]) h
      rw [front_vecs h1] at hm
      refine ⟨_, r, ?_, .mbs row ext q m info hrow hE hQ hI hm⟩
      rw [t.bits, hb]
      subst hhead
      simp only [id, List.append_assoc]
    · exact absurd h (safe_mlift safe_nextStartCode s2).1

theorem sliceX_sure {e : PicEnv} (he : Plain e) {W H : Nat} (hp : RefsOK e W H) {s : MB} {l r : List Bool}
    (g : Geometry s.frame W H) (hl : SliceFaultAt e W H l) (hb : s.br.bits = l ++ r) (hr : 24 ≤ r.length) :
    (slice e s).1 = .panic := by
  rw [slice_front]
  cases hl with
  | row row h hW hH => exact Reads.bind_panic' ((traps_front e W H).sure _ s r g ⟨row, h, hW, hH, rfl⟩ hb hr)
  | mbs row ext q mbs info hRow hExt hQ hInfo hMbs =>
    rcases (reads_frontAt e).fwd (bitsOf 32 (0x101 + row) ++ (ext ++ (q ++ infoBits info))) row s (mbs ++ r)
      ⟨_, rfl, hRow, ext, q, info, rfl, hExt, hQ, hInfo⟩ (by rw [hb]; simp only [List.append_assoc])
      (by rw [List.length_append]; omega) with h | ⟨a, s1, h1, rfl, t⟩
    · exact Reads.bind_panic' h
    · rw [Go.bind_ok h1]
      have hb1 : s1.br.bits = mbs ++ r := Reads.took_split t (by rw [hb]; simp only [List.append_assoc])
      have g1 : Geometry s1.frame W H := keeps_ok (fr_front (P := fun f => Geometry f W H) e) g h1
      rcases mbLoopX_sure he hp hMbs (fuelOf s1.br) s1 r g1 (front_vecs h1) hb1 hr with h | h
      · exact Reads.bind_panic' h
      · exact absurd h (mbLoop_term e a _ _ s1 (by rw [fuelOf_eq]; omega))

/-! ### pictures -/

theorem sliceLoopX_only {e : PicEnv} (he : Plain e) {W H : Nat} (hp : RefsOK e W H) :
    ∀ (fuel : Nat) (s : MB), Geometry s.frame W H → s.br.later = [] → (sliceLoop e fuel s).1 = .panic →
      ∃ l r, s.br.bits = l ++ r ∧ PictureFaultAt e W H s.br.pos l := by
  intro fuel
  induction fuel with
  | zero => intro s _ _ h; cases h
  | succ fuel ih =>
    intro s g hlat h
    rw [sliceLoop_eq] at h
    rcases Traps.bind_panic_inv h with h | ⟨u, s1, h1, h⟩
    · obtain ⟨l, r, hb, hl⟩ := sliceX_only he hp g hlat h
      exact ⟨l, r, hb, .last _ l hl⟩
    · have g1 : Geometry s1.frame W H := keeps_ok (fr_slice (keep_geometry e W H)) g h1
      obtain ⟨l, k, r, hl, hb, hs⟩ := slice_bwd he hlat h1
      rcases Traps.bind_panic_inv h with h | ⟨v, s2, h2, h6⟩
      · exact absurd h (safe_mlift (BR.safe_peek 32) s1).1
      · obtain ⟨-, hlen, hv⟩ := BR.peek_inv (mlift_inv h2)
        have e2 : s2 = s1 := by
          rw [mlift_run (BR.peek_ok hlen)] at h2
          cases h2; rfl
        subst e2
        split at h6
        · obtain ⟨m, r', hb', hm⟩ := ih s2 g1 (by rw [hs]; exact hlat) h6
          rw [hs] at hb' hm
          refine ⟨_, r', ?_, .next _ k l m hl hm⟩
          rw [hb]
          have hb' : prefix1 ++ r = m ++ r' := hb'
          rw [hb']
          simp only [List.append_assoc]
        · cases h6

theorem sliceFaultAt_starts {e : PicEnv} {W H : Nat} {l : List Bool} (h : SliceFaultAt e W H l) :
    ∃ row rest, row < 175 ∧ l = bitsOf 32 (0x101 + row) ++ rest := by
  cases h with
  | row row h _ _ => exact ⟨row, [], h, by simp⟩
  | mbs row ext q mbs info h _ _ _ _ => exact ⟨row, _, h, rfl⟩

theorem pictureFaultAt_starts {e : PicEnv} {W H : Nat} {pos : Nat} {l : List Bool}
    (h : PictureFaultAt e W H pos l) : ∃ row rest, row < 175 ∧ l = bitsOf 32 (0x101 + row) ++ rest := by
  cases h with
  | last _ _ h => exact sliceFaultAt_starts h
  | next _ k l m h t =>
    obtain ⟨row, head, mbs, rfl, hrow, -, -⟩ := sliceWord_iff.mp h
    exact ⟨row, _, hrow, by rw [List.append_assoc]⟩

theorem sliceLoopX_sure {e : PicEnv} (he : Plain e) {W H : Nat} (hp : RefsOK e W H) {pos : Nat}
    {l : List Bool} (hl : PictureFaultAt e W H pos l) : ∀ (fuel : Nat) (s : MB) (r : List Bool), Geometry s.frame W H →
      s.br.pos = pos → s.br.bits = l ++ r → 24 ≤ r.length → (sliceLoop e fuel s).1 = .panic ∨ (sliceLoop e fuel s).1 = .hang := by
  induction hl with
  | last pos l h =>
    intro fuel s r g _ hb hr
    cases fuel with
    | zero => exact .inr rfl
    | succ fuel => rw [sliceLoop_eq]; exact .inl (Reads.bind_panic' (sliceX_sure he hp g h hb hr))
  | next pos k l m h t ih =>
    rintro fuel s r g rfl hb hr
    cases fuel with
    | zero => exact .inr rfl
    | succ fuel =>
      rw [sliceLoop_eq]
      obtain ⟨row, rest, hrow, rfl⟩ := pictureFaultAt_starts t
      have hc : bitsOf 32 (0x101 + row) = prefix1 ++ bitsOf 8 (row + 1) := by
        rw [code32 (by omega), show 0x100 + (row + 1) = 0x101 + row from by omega]
      have hb2 : s.br.bits = l ++ (zeros (padding (s.br.pos + l.length)) ++ (zeros (8 * k) ++
          (prefix1 ++ (bitsOf 8 (row + 1) ++ (rest ++ r))))) := by
        rw [hb, hc]; simp only [List.append_assoc]
      rcases slice_fwd he h hb2 with h1 | ⟨s', h1, hs⟩
      · exact .inl (Reads.bind_panic' h1)
      · have g' : Geometry s'.frame W H := keeps_ok (fr_slice (keep_geometry e W H)) g h1
        have hbits : s'.br.bits = prefix1 ++ (bitsOf 8 (row + 1) ++ (rest ++ r)) := by rw [hs]
        rw [Go.bind_ok h1, Go.bind_ok (mlift_run (BR.peek_ok (by
          rw [hbits]; simp only [List.length_append, length_bitsOf, show prefix1.length = 24 from rfl]; omega))), hbits,
          peek32 (by omega), show 0x100 + (row + 1) = 0x101 + row from by omega, isSlice_row hrow, if_pos rfl]
        exact ih fuel s' r g' (by rw [hs]) (by rw [hbits, hc]; simp only [List.append_assoc]) hr

theorem picRunX_only {e : PicEnv} (he : Plain e) {W H : Nat} (hp : RefsOK e W H) {m : MB}
    (g : Geometry m.frame W H) (hlat : m.br.later = []) (h : (picRun e m).1 = .panic) :
    ∃ l r, m.br.bits = l ++ r ∧ PictureFaultAt e W H m.br.pos l := by
  unfold picRun at h
  rcases Traps.bind_panic_inv h with h | ⟨u, s1, h1, h⟩
  · exact sliceLoopX_only he hp _ m g hlat h
  · exact absurd h (safe_mlift safe_nextStartCode s1).1

theorem picRunX_sure {e : PicEnv} (he : Plain e) {W H : Nat} (hp : RefsOK e W H) {m : MB} {l r : List Bool}
    (g : Geometry m.frame W H) (hl : PictureFaultAt e W H m.br.pos l) (hb : m.br.bits = l ++ r) (hr : 24 ≤ r.length) :
    (picRun e m).1 = .panic := by
  unfold picRun
  rcases sliceLoopX_sure he hp hl (fuelOf m.br) m r g rfl hb hr with h | h
  · exact Reads.bind_panic' h
  · exact absurd h (sliceLoop_term e _ m (by rw [fuelOf_eq]; omega))

end Mpeg.Video
