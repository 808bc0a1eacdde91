/-
Panics of slices and pictures.
-/
import Verif.Video.PanicLemmas4
set_option linter.all false
namespace Mpeg.Video
open Spec
open _root_.Mpeg.BR (Took)

/-! ### macroblocks with their addresses -/

/-- A macroblock after the one at `addr`, at address `a`. -/
def MbAt (e : PicEnv) (addr : Option Nat) (a : Nat) (l : List Bool) : Prop :=
  (∃ t n cbp field head pat blocks, l = head ++ (pat ++ blocks) ∧ HeadAt e t n field head ∧
    (if t.pattern then (pat, cbp) ∈ isoCbp else pat = []) ∧
    BlocksWord t.intra e.pce.intraVLCFormat (fun i => t.intra || (t.pattern && codedBlock cbp i)) 6 0 blocks ∧
    a = place addr n) ∨ (BrokenWord e l ∧ a = 0)

theorem finish_addr {e : PicEnv} {row a a' : Nat} {m : Mode} {cbp : Nat} {s s' : MB} (h : mbFinish e row a m cbp s = (.ok a', s')) :
    a' = a := by
  unfold mbFinish at h
  obtain ⟨_, _, _, h⟩ := Go.bind_eq_ok h
  cases h; rfl

theorem mbAt_fwd {e : PicEnv} (he : Plain e) {l r : List Bool} {s : MB} {row a : Nat} {addr : Option Nat}
    (hl : MbAt e addr a l) (hb : s.br.bits = l ++ r) (hr : 24 ≤ r.length) :
    (macroblock e row addr s).1 = .panic ∨ ∃ s', macroblock e row addr s = (.ok a, s') ∧ Took s.br l s'.br := by
  rcases hl with ⟨t, n, cbp, field, head, pat, blocks, rfl, h, hPat, hBlocks, rfl⟩ | ⟨hl, rfl⟩
  · rcases mb_fwd he (.mk t head pat blocks cbp (headWord_iff.2 ⟨n, field, h⟩) hPat hBlocks) hb hr row addr with hp | ⟨a, s', h1, t1⟩
    · exact .inl hp
    · refine .inr ⟨s', ?_, t1⟩
      rw [h1]
      congr 1
      congr 1
      rw [macroblock_split] at h1
      obtain ⟨x, s1, h2, h3⟩ := Go.bind_eq_ok h1
      rcases (reads_headAt he row addr).fwd head (t, n, field) s (pat ++ blocks ++ r) h (by rw [hb]; simp)
        (by simp only [List.length_append]; omega) with hp | ⟨x', s1', h2', hx, t2⟩
      · rw [h2] at hp; cases hp
      · rw [h2] at h2'
        cases h2'
        rw [Prod.mk.injEq, Prod.mk.injEq] at hx
        obtain ⟨hx1, hx2, hx3⟩ := hx
        rw [hx2, place_eq] at h3
        unfold mbPattern at h3
        split at h3
        · rename_i hp
          rw [hx1] at hp
          rw [if_pos hp] at hPat
          obtain ⟨s2, h4, -⟩ := cbp_run hPat (s := s1.br) (r := blocks ++ r) (by
            have : s1.br.bits = (pat ++ blocks) ++ r := Reads.took_split t2 hb
            rw [this, List.append_assoc])
          unfold mbCoded at h3
          rw [he.chroma, mlift_run h4] at h3
          exact finish_addr h3
        · exact finish_addr h3
  · exact broken_fwd he hl hb hr row addr

theorem mbAt_bwd {e : PicEnv} (he : Plain e) {s s' : MB} {a row : Nat} {addr : Option Nat} (hl : s.br.later = [])
    (h : macroblock e row addr s = (.ok a, s')) :
    (∃ l, MbAt e addr a l ∧ Took s.br l s'.br) ∨ s'.br.bits = [] ∧ s'.br.later = [] := by
  rw [macroblock_split] at h
  obtain ⟨x, s1, h1, h2⟩ := Go.bind_eq_ok h
  obtain ⟨head, hh, t1⟩ := (reads_headAt he row addr).bwd _ _ _ h1
  rw [place_eq] at h2
  unfold mbPattern at h2
  cases hp : x.2.type.pattern with
  | true =>
    rw [hp, if_pos rfl] at h2
    unfold mbCoded at h2
    rw [he.chroma] at h2
    cases hx : MB.lift (codedBlockPattern 1) s1 with
    | mk r s2 =>
      rw [hx] at h2
      cases r with
      | ok cbp =>
        dsimp only at h2
        obtain ⟨pat, hc, t2⟩ := cbp_inv (mlift_inv hx)
        obtain ⟨blocks, hw, t3⟩ := (reads_finish he row _ x.2 cbp).bwd _ _ _ h2
        exact .inl ⟨_, .inl ⟨x.2.type, x.1, cbp, x.2.dctType, head, pat, blocks, rfl, hh, by rw [hp, if_pos rfl]; exact hc, hw,
          finish_addr h2⟩, t1.trans (t2.trans t3)⟩
      | err y =>
        dsimp only at h2
        have ha : a = 0 := by cases h2; rfl
        have hs : s2 = s' := by cases h2; rfl
        subst hs
        have hx' : codedBlockPattern 1 s1.br = (.err y, s2.br) := mlift_err hx
        rcases cbp_err (by rw [t1.later, hl]) hx' with t2 | hz
        · exact .inl ⟨_, .inr ⟨.mk x.2.type head (headWord_iff.2 ⟨_, _, hh⟩) hp, ha⟩, t1.trans t2⟩
        · exact .inr hz
      | panic => cases h2
      | hang => cases h2
  | false =>
    rw [hp, if_neg (by decide)] at h2
    obtain ⟨blocks, hw, t3⟩ := (reads_finish he row _ x.2 0).bwd _ _ _ h2
    exact .inl ⟨_, .inl ⟨x.2.type, x.1, 0, x.2.dctType, head, [], blocks, rfl, hh, by rw [hp, if_neg Bool.false_ne_true], hw,
      finish_addr h2⟩, t1.trans t3⟩

/-! ### the macroblock loop -/

theorem mbLoop_eq (e : PicEnv) (row fuel : Nat) (addr : Option Nat) : mbLoop e row (fuel + 1) addr = (do
      let a ← macroblock e row addr
      let v ← MB.lift (BR.peek 23)
      if v = 0 then pure () else mbLoop e row fuel (some a)) := rfl

theorem mbLoop_only {e : PicEnv} (he : Plain e) {W H row : Nat} (hp : PastOK e W H) :
    ∀ (fuel : Nat) (addr : Option Nat) (s : MB), Geometry s.frame W H → s.br.later = [] →
      (mbLoop e row fuel addr s).1 = .panic → ∃ l r, s.br.bits = l ++ r ∧
        MbsFault e (fun addr l => MbFault e W H row addr l ∨ MbRisk e addr l) addr l := by
  intro fuel
  induction fuel with
  | zero => intro addr s _ _ h; cases h
  | succ fuel ih =>
    intro addr s g hlat h
    rw [mbLoop_eq] at h
    rcases Traps.bind_panic_inv h with h | ⟨a, s1, h1, h⟩
    · obtain ⟨l, r, hb, hl⟩ := (traps_macroblock he hp).only s g h
      exact ⟨l, r, hb, .last addr l hl⟩
    · have g1 : Geometry s1.frame W H := keeps_ok (fr_macroblock (keep_geometry e W H) row addr) g h1
      rcases Traps.bind_panic_inv h with h | ⟨v, s2, h2, h6⟩
      · exact absurd h (safe_mlift (BR.safe_peek 23) s1).1
      · obtain ⟨hs, hlen, hv⟩ := BR.peek_inv (mlift_inv h2)
        have e2 : s2 = s1 := by
          rw [mlift_run (BR.peek_ok hlen)] at h2
          cases h2; rfl
        subst e2
        rcases mbAt_bwd he hlat h1 with ⟨l, hl, t⟩ | ⟨hz, -⟩
        · split at h6
          · cases h6
          · obtain ⟨m, r, hb, hm⟩ := ih (some a) s2 g1 (by rw [t.later, hlat]) h6
            refine ⟨l ++ m, r, by rw [t.bits, hb, List.append_assoc], ?_⟩
            rcases hl with ⟨ty, n, cbp, field, head, pat, blocks, rfl, hh, hPat, hBlocks, rfl⟩ | ⟨hl, rfl⟩
            · exact .next addr ty n cbp field head pat blocks m hh hPat hBlocks hm
            · exact .broken addr l m hl hm
        · rw [hz] at hlen; simp at hlen

theorem start_true {k v : Nat} {c rest : List Bool} (h : (c, v) ∈ isoAddress) : true ∈ (escapes k ++ (c ++ rest)).take 23 := by
  have k1 : isoAddress.all (fun x => decide (true ∈ x.1 ∧ x.1.length ≤ 11)) = true := by decide +kernel
  have k2 := of_decide_eq_true (List.all_eq_true.1 k1 _ h)
  obtain ⟨w, t, hw, h1, h2⟩ : ∃ w t, escapes k ++ (c ++ rest) = w ++ t ∧ true ∈ w ∧ w.length ≤ 11 := by
    cases k with
    | zero => exact ⟨c, rest, by simp [escapes], k2.1, k2.2⟩
    | succ k => exact ⟨addressEscape, escapes k ++ (c ++ rest), by simp [escapes], by decide, by decide⟩
  rw [hw, List.take_append]
  exact List.mem_append_left _ (by rw [List.take_of_length_le (by omega)]; exact h1)

theorem headStart_true {e : PicEnv} {t : MacroblockType} {n : Nat} {field : Bool} {motion l : List Bool}
    (h : HeadStart e t n field motion l) (r : List Bool) : true ∈ (l ++ r).take 23 := by
  cases h with
  | mk k v c type dct q hn hc h1 h2 h3 h6 hq =>
    simp only [List.append_assoc]
    exact start_true hc

theorem mbFault_true {e : PicEnv} {W H row : Nat} {addr : Option Nat} {l : List Bool} (h : MbFault e W H row addr l) (r : List Bool) :
    true ∈ (l ++ r).take 23 := by
  cases h with
  | codingType k v c h _ => rw [List.append_assoc]; exact start_true h
  | skipped k v a c h _ _ _ _ => rw [List.append_assoc]; exact start_true h
  | noMotion t n field motion _ h _ _ _ => exact headStart_true h r
  | dualPrime t n field motion l x h _ _ => rw [List.append_assoc]; exact headStart_true h _
  | blocks t n cbp field head pat l h _ _ => rw [List.append_assoc]; exact head_true (headWord_iff.2 ⟨_, _, h⟩) _

theorem mbsFault_true {e : PicEnv} {W H row : Nat} {addr : Option Nat} {l : List Bool} (h : MbsFault e (MbFault e W H row) addr l)
    (r : List Bool) : true ∈ (l ++ r).take 23 := by
  cases h with
  | last _ _ h => exact mbFault_true h r
  | next _ t n cbp field head pat blocks m h _ _ _ =>
    simp only [List.append_assoc]; exact head_true (headWord_iff.2 ⟨_, _, h⟩) _
  | broken _ l m h _ => rw [List.append_assoc]; exact laxWord_true (.inr h) _

theorem mbLoop_sure {e : PicEnv} (he : Plain e) {W H row : Nat} (hp : PastOK e W H) {addr : Option Nat}
    {l : List Bool} (hl : MbsFault e (MbFault e W H row) addr l) :
    ∀ (fuel : Nat) (s : MB) (r : List Bool), Geometry s.frame W H → s.br.bits = l ++ r → 24 ≤ r.length →
      (mbLoop e row fuel addr s).1 = .panic ∨ (mbLoop e row fuel addr s).1 = .hang := by
  have step : ∀ (addr : Option Nat) (a : Nat) (l m : List Bool), MbAt e addr a l → MbsFault e (MbFault e W H row) (some a) m →
      (∀ (fuel : Nat) (s : MB) (r : List Bool), Geometry s.frame W H → s.br.bits = m ++ r → 24 ≤ r.length →
        (mbLoop e row fuel (some a) s).1 = .panic ∨ (mbLoop e row fuel (some a) s).1 = .hang) →
      ∀ (fuel : Nat) (s : MB) (r : List Bool), Geometry s.frame W H → s.br.bits = l ++ m ++ r → 24 ≤ r.length →
      (mbLoop e row fuel addr s).1 = .panic ∨ (mbLoop e row fuel addr s).1 = .hang := by
    intro addr a l m hl hm ih fuel s r g hb hr
    cases fuel with
    | zero => exact .inr rfl
    | succ fuel =>
      rw [mbLoop_eq]
      rcases mbAt_fwd (row := row) he hl (r := m ++ r) (by rw [hb, List.append_assoc]) (by rw [List.length_append]; omega) with
        h | ⟨s', h, t⟩
      · exact .inl (Reads.bind_panic' h)
      · have hb' : s'.br.bits = m ++ r := Reads.took_split t hb
        have g' : Geometry s'.frame W H := keeps_ok (fr_macroblock (keep_geometry e W H) row addr) g h
        rw [Go.bind_ok h, Go.bind_ok (mlift_run (BR.peek_ok (by rw [hb', List.length_append]; omega))), hb',
          if_neg (natOfBits_true (mbsFault_true hm r))]
        exact ih fuel s' r g' hb' hr
  induction hl with
  | last addr l h =>
    intro fuel s r g hb hr
    cases fuel with
    | zero => exact .inr rfl
    | succ fuel =>
      rw [mbLoop_eq]
      exact .inl (Reads.bind_panic' ((traps_macroblock he hp).sure l s r g h hb hr))
  | next addr t n cbp field head pat blocks m h hPat hBlocks hm ih =>
    exact step addr _ _ m (.inl ⟨t, n, cbp, field, head, pat, blocks, rfl, h, hPat, hBlocks, rfl⟩) hm ih
  | broken addr l m h hm ih => exact step addr 0 l m (.inr ⟨h, rfl⟩) hm ih

/-! ### slices -/

theorem safe_sliceHeader (v : Nat) : Go.Safe (sliceHeader v) := by
  unfold sliceHeader
  exact .bind (.opt (BR.safe_read 3)) fun _ => .bind (BR.safe_read 5) fun _ => .bind (BR.safe_peek 1) fun _ =>
    .bind (.opt (.bind BR.safe_read1 fun _ => .bind BR.safe_read1 fun _ => .bind (BR.safe_read 7) fun _ => .bind .check fun _ =>
      .bind safe_readExtra fun _ => .pure _)) fun _ => .bind (BR.safe_skip 1) fun _ => .pure _

theorem front_cond {f : Frame} {W H row : Nat} (g : Geometry f W H) :
    (f.y.len < 16 * row * f.yStride ∨ f.cb.len < 8 * row * f.cStride ∨ f.cr.len < 8 * row * f.cStride) ↔ 0 < W ∧ H < row := by
  obtain ⟨g1, g2, g3, g4, g5⟩ := g
  rw [g1, g2, g3, g4, g5]
  have k : ∀ c, 0 < c → (c * W * (c * H) < c * row * (c * W) ↔ 0 < W ∧ H < row) := by
    intro c hc
    have e1 : c * W * (c * H) = (c * c * W) * H := by ring
    have e2 : c * row * (c * W) = (c * c * W) * row := by ring
    rw [e1, e2]
    constructor
    · intro h
      have h1 : H < row := Nat.lt_of_mul_lt_mul_left h
      refine ⟨?_, h1⟩
      rcases Nat.eq_zero_or_pos W with h0 | h0
      · rw [h0] at h; simp at h
      · exact h0
    · rintro ⟨h1, h2⟩
      exact Nat.mul_lt_mul_of_pos_left h2 (Nat.mul_pos (Nat.mul_pos hc hc) h1)
  rw [k 16 (by decide), k 8 (by decide)]
  simp

theorem row_code {row : Nat} (h : row < 175) : (0x101 + row) % 256 - 1 = row := by omega

theorem reads_frontAt (e : PicEnv) : Reads MB.br (sliceFront e) id
    (fun l row => ∃ head, l = bitsOf 32 (0x101 + row) ++ head ∧ row < 175 ∧ SliceHead e.sh.verticalSizeValue head) := by
  have base := reads_front e
  constructor
  · rintro l row s r ⟨head, rfl, hrow, hh⟩ hb hr
    rcases base.fwd _ () s r ⟨row, head, rfl, hrow, hh⟩ hb hr with h | ⟨a, s', h, -, t⟩
    · exact .inl h
    · refine .inr ⟨a, s', h, ?_, t⟩
      unfold sliceFront at h
      obtain ⟨code, s1, h1, h⟩ := Go.bind_eq_ok h
      obtain ⟨u, s2, h2, h⟩ := Go.bind_eq_ok h
      have h1' : MB.lift (BR.read 32) s = (.ok (natOfBits (s.br.bits.take 32)), { s with br := s.br.adv 32 }) :=
        mlift_run (BR.read_ok (by rw [hb]; simp only [List.length_append, length_bitsOf]; omega))
      rw [h1'] at h1
      have hc : code = 0x101 + row := by
        cases h1
        rw [hb, List.append_assoc, List.take_left' (length_bitsOf ..), natOfBits_bitsOf_of_lt (by omega)]
      rw [hc, row_code hrow] at h
      obtain ⟨s3, s4, h3, h⟩ := Go.bind_eq_ok h
      split at h
      · cases h
      · obtain ⟨q, s5, h4, h⟩ := Go.bind_eq_ok h
        obtain ⟨q', s6, h5, h⟩ := Go.bind_eq_ok h
        cases h
        rfl
  · intro s a s' h
    obtain ⟨l, ⟨row, head, rfl, hrow, hh⟩, t⟩ := base.bwd s a s' h
    refine ⟨_, ⟨head, ?_, ?_, hh⟩, t⟩ <;>
    · have : a = row := by
        unfold sliceFront at h
        obtain ⟨code, s1, h1, h⟩ := Go.bind_eq_ok h
        obtain ⟨u, s2, h2, h⟩ := Go.bind_eq_ok h
        have hb := t.bits
        have h1' : MB.lift (BR.read 32) s = (.ok (natOfBits (s.br.bits.take 32)), { s with br := s.br.adv 32 }) :=
          mlift_run (BR.read_ok (by rw [hb]; simp only [List.length_append, length_bitsOf]; omega))
        rw [h1'] at h1
        have hc : code = 0x101 + row := by
          cases h1
          rw [hb, List.append_assoc, List.take_left' (length_bitsOf ..), natOfBits_bitsOf_of_lt (by omega)]
        rw [hc, row_code hrow] at h
        obtain ⟨s3, s4, h3, h⟩ := Go.bind_eq_ok h
        split at h
        · cases h
        · obtain ⟨q, s5, h4, h⟩ := Go.bind_eq_ok h
          obtain ⟨q', s6, h5, h⟩ := Go.bind_eq_ok h
          cases h
          rfl
      subst this
      first | rfl | exact hrow

theorem traps_front (e : PicEnv) (W H : Nat) : Traps MB.br (sliceFront e) (fun s => Geometry s.frame W H)
    (fun l => ∃ row, row < 175 ∧ 0 < W ∧ H < row ∧ l = bitsOf 32 (0x101 + row)) (fun _ => False) := by
  have tail : ∀ row : Nat, Go.Safe (do
      let qsc ← MB.lift (sliceHeader e.sh.verticalSizeValue)
      Go.modify fun s => { s with dcp := DcPred.reset e.pce.intraDCPrecision, mvd := MVD.init, qsc := qsc }
      pure row : Go MB Nat) := fun row =>
    .bind (safe_mlift (safe_sliceHeader _)) fun _ => .bind (.modify _) fun _ => .pure _
  constructor
  · intro s g h
    unfold sliceFront at h
    rcases Traps.bind_panic_inv h with h | ⟨code, s1, h1, h⟩
    · exact absurd h (safe_mlift (BR.safe_read 32) s).1
    have hr := (reads_read 32).lift.bwd _ _ _ h1
    obtain ⟨l, ⟨hl, hc⟩, t⟩ := hr
    have hc : code = natOfBits l := hc
    have f1 : s1.frame = s.frame := by
      unfold MB.lift at h1
      rw [Prod.mk.injEq] at h1
      rw [← h1.2]
    cases hs : isSlice code with
    | false => rw [hs] at h; cases h
    | true =>
      rw [hs] at h
      have h : ((do
          let s ← Go.get
          if s.frame.y.len < 16 * (code % 256 - 1) * s.frame.yStride ∨ s.frame.cb.len < 8 * (code % 256 - 1) * s.frame.cStride ∨
              s.frame.cr.len < 8 * (code % 256 - 1) * s.frame.cStride then Go.panic
          else do
            let qsc ← MB.lift (sliceHeader e.sh.verticalSizeValue)
            Go.modify fun s => { s with dcp := DcPred.reset e.pce.intraDCPrecision, mvd := MVD.init, qsc := qsc }
            pure (code % 256 - 1) : Go MB Nat) s1).1 = .panic := h
      rw [Go.bind_ok (Go.get_apply s1), f1] at h
      unfold isSlice minSliceStartCode maxSliceStartCode at hs
      simp only [Bool.and_eq_true, decide_eq_true_eq] at hs
      by_cases hx : 0 < W ∧ H < code % 256 - 1
      · refine ⟨l, _, t.bits, .inl ⟨code - 0x101, by omega, hx.1, by omega, ?_⟩⟩
        rw [show 0x101 + (code - 0x101) = natOfBits l from by omega, bitsOf_natOfBits' hl]
      · rw [if_neg (fun h => hx ((front_cond g).1 h))] at h
        exact absurd h (tail _ s1).1
  · rintro l s r g ⟨row, hrow, hW, hH, rfl⟩ hb hr
    unfold sliceFront
    have h1 : MB.lift (BR.read 32) s = (.ok (natOfBits (s.br.bits.take 32)), { s with br := s.br.adv 32 }) :=
      mlift_run (BR.read_ok (by rw [hb]; simp only [List.length_append, length_bitsOf]; omega))
    rw [hb, List.take_left' (length_bitsOf ..), natOfBits_bitsOf_of_lt (by omega)] at h1
    rw [Go.bind_ok h1, isSlice_row hrow, row_code hrow]
    show ((do
          let s ← Go.get
          if s.frame.y.len < 16 * row * s.frame.yStride ∨ s.frame.cb.len < 8 * row * s.frame.cStride ∨
              s.frame.cr.len < 8 * row * s.frame.cStride then Go.panic
          else do
            let qsc ← MB.lift (sliceHeader e.sh.verticalSizeValue)
            Go.modify fun s => { s with dcp := DcPred.reset e.pce.intraDCPrecision, mvd := MVD.init, qsc := qsc }
            pure row : Go MB Nat) { s with br := s.br.adv 32 }).1 = .panic
    rw [Go.bind_ok (Go.get_apply _), if_pos ((front_cond g).2 ⟨hW, hH⟩)]
    rfl

theorem fr_front {P : Frame → Prop} (e : PicEnv) : Keeps (OnFrame P) (sliceFront e) := by
  unfold sliceFront
  exact keeps_bind (fr_lift _) fun _ => keeps_bind (keeps_check _ _) fun _ => keeps_bind keeps_get fun _ =>
    keeps_ite keeps_panic (keeps_bind (fr_lift _) fun _ => keeps_bind (keeps_modify fun _ h => h) fun _ => keeps_pure _)

theorem slice_only {e : PicEnv} (he : Plain e) {W H : Nat} (hp : PastOK e W H) {s : MB}
    (g : Geometry s.frame W H) (hlat : s.br.later = []) (h : (slice e s).1 = .panic) :
    ∃ l r, s.br.bits = l ++ r ∧ SliceFault e W H (fun row addr l => MbFault e W H row addr l ∨ MbRisk e addr l) l := by
  rw [slice_front] at h
  rcases Traps.bind_panic_inv h with h | ⟨row, s1, h1, h⟩
  · obtain ⟨l, r, hb, hl⟩ := (traps_front e W H).only s g h
    obtain ⟨row, h1, h2, h3, rfl⟩ := hl.elim id False.elim
    exact ⟨_, r, hb, .row row h1 h2 h3⟩
  · obtain ⟨l, ⟨head, rfl, hrow, ext, q, info, hhead, hE, hQ, hI⟩, t⟩ := (reads_frontAt e).bwd _ _ _ h1
    have g1 : Geometry s1.frame W H := keeps_ok (fr_front (P := fun f => Geometry f W H) e) g h1
    rcases Traps.bind_panic_inv h with h | ⟨u, s2, h2, h⟩
    · obtain ⟨m, r, hb, hm⟩ := mbLoop_only he hp _ _ _ g1 (by rw [t.later, hlat]) h
      refine ⟨_, r, ?_, .mbs row ext q m info hrow hE hQ hI hm⟩
      rw [t.bits, hb]
      subst hhead
      simp only [id, List.append_assoc]
    · exact absurd h (safe_mlift safe_nextStartCode s2).1

theorem slice_sure {e : PicEnv} (he : Plain e) {W H : Nat} (hp : PastOK e W H) {s : MB} {l r : List Bool}
    (g : Geometry s.frame W H) (hl : SliceFault e W H (MbFault e W H) l) (hb : s.br.bits = l ++ r) (hr : 24 ≤ r.length) :
    (slice e s).1 = .panic := by
  rw [slice_front]
  cases hl with
  | row row h hW hH => exact Reads.bind_panic' ((traps_front e W H).sure _ s r g ⟨row, h, hW, hH, rfl⟩ hb hr)
  | mbs row ext q mbs info hRow hExt hQ hInfo hMbs =>
    rcases (reads_frontAt e).fwd (bitsOf 32 (0x101 + row) ++ (ext ++ (q ++ infoBits info))) row s (mbs ++ r)
      ⟨_, rfl, hRow, ext, q, info, rfl, hExt, hQ, hInfo⟩ (by rw [hb]; simp only [List.append_assoc])
      (by rw [List.length_append]; omega) with h | ⟨a, s1, h1, rfl, t⟩
    · exact Reads.bind_panic' h
    · rw [Go.bind_ok h1]
      have hb1 : s1.br.bits = mbs ++ r := Reads.took_split t (by rw [hb]; simp only [List.append_assoc])
      have g1 : Geometry s1.frame W H := keeps_ok (fr_front (P := fun f => Geometry f W H) e) g h1
      rcases mbLoop_sure he hp hMbs (fuelOf s1.br) s1 r g1 hb1 hr with h | h
      · exact Reads.bind_panic' h
      · exact absurd h (mbLoop_term e a _ _ s1 (by rw [fuelOf_eq]; omega))

/-! ### pictures -/

theorem sliceLoop_eq (e : PicEnv) (fuel : Nat) : sliceLoop e (fuel + 1) = (do
      slice e
      let v ← MB.lift (BR.peek 32)
      if isSlice v then sliceLoop e fuel else pure ()) := rfl

theorem sliceLoop_only {e : PicEnv} (he : Plain e) {W H : Nat} (hp : PastOK e W H) :
    ∀ (fuel : Nat) (s : MB), Geometry s.frame W H → s.br.later = [] → (sliceLoop e fuel s).1 = .panic →
      ∃ l r, s.br.bits = l ++ r ∧ PictureRisk e W H s.br.pos l := by
  intro fuel
  induction fuel with
  | zero => intro s _ _ h; cases h
  | succ fuel ih =>
    intro s g hlat h
    rw [sliceLoop_eq] at h
    rcases Traps.bind_panic_inv h with h | ⟨u, s1, h1, h⟩
    · obtain ⟨l, r, hb, hl⟩ := slice_only he hp g hlat h
      exact ⟨l, r, hb, .last _ l hl⟩
    · have g1 : Geometry s1.frame W H := keeps_ok (fr_slice (keep_geometry e W H)) g h1
      obtain ⟨l, k, r, hl, hb, hs⟩ := slice_bwd he hlat h1
      rcases Traps.bind_panic_inv h with h | ⟨v, s2, h2, h6⟩
      · exact absurd h (safe_mlift (BR.safe_peek 32) s1).1
      · obtain ⟨-, hlen, hv⟩ := BR.peek_inv (mlift_inv h2)
        have e2 : s2 = s1 := by
          rw [mlift_run (BR.peek_ok hlen)] at h2
          cases h2; rfl
        subst e2
        split at h6
        · obtain ⟨m, r', hb', hm⟩ := ih s2 g1 (by rw [hs]; exact hlat) h6
          rw [hs] at hb' hm
          refine ⟨_, r', ?_, .next _ k l m hl hm⟩
          rw [hb]
          have hb' : prefix1 ++ r = m ++ r' := hb'
          rw [hb']
          simp only [List.append_assoc]
        · cases h6

theorem sliceFault_starts {e : PicEnv} {W H : Nat} {F : Nat → Option Nat → List Bool → Prop} {l : List Bool}
    (h : SliceFault e W H F l) : ∃ row rest, row < 175 ∧ l = bitsOf 32 (0x101 + row) ++ rest := by
  cases h with
  | row row h _ _ => exact ⟨row, [], h, by simp⟩
  | mbs row ext q mbs info h _ _ _ _ => exact ⟨row, _, h, rfl⟩

theorem slicesFault_starts {e : PicEnv} {W H : Nat} {F : Nat → Option Nat → List Bool → Prop} {pos : Nat} {l : List Bool}
    (h : SlicesFault e W H F pos l) : ∃ row rest, row < 175 ∧ l = bitsOf 32 (0x101 + row) ++ rest := by
  cases h with
  | last _ _ h => exact sliceFault_starts h
  | next _ k l m h t =>
    obtain ⟨row, head, mbs, rfl, hrow, -, -⟩ := sliceWord_iff.mp h
    exact ⟨row, _, hrow, by rw [List.append_assoc]⟩

theorem sliceLoop_sure {e : PicEnv} (he : Plain e) {W H : Nat} (hp : PastOK e W H) {pos : Nat}
    {l : List Bool} (hl : PictureFault e W H pos l) : ∀ (fuel : Nat) (s : MB) (r : List Bool), Geometry s.frame W H →
      s.br.pos = pos → s.br.bits = l ++ r → 24 ≤ r.length → (sliceLoop e fuel s).1 = .panic ∨ (sliceLoop e fuel s).1 = .hang := by
  induction hl with
  | last pos l h =>
    intro fuel s r g _ hb hr
    cases fuel with
    | zero => exact .inr rfl
    | succ fuel => rw [sliceLoop_eq]; exact .inl (Reads.bind_panic' (slice_sure he hp g h hb hr))
  | next pos k l m h t ih =>
    rintro fuel s r g rfl hb hr
    cases fuel with
    | zero => exact .inr rfl
    | succ fuel =>
      rw [sliceLoop_eq]
      obtain ⟨row, rest, hrow, rfl⟩ := slicesFault_starts t
      have hc : bitsOf 32 (0x101 + row) = prefix1 ++ bitsOf 8 (row + 1) := by
        rw [code32 (by omega), show 0x100 + (row + 1) = 0x101 + row from by omega]
      have hb2 : s.br.bits = l ++ (zeros (padding (s.br.pos + l.length)) ++ (zeros (8 * k) ++
          (prefix1 ++ (bitsOf 8 (row + 1) ++ (rest ++ r))))) := by
        rw [hb, hc]; simp only [List.append_assoc]
      rcases slice_fwd he h hb2 with h1 | ⟨s', h1, hs⟩
      · exact .inl (Reads.bind_panic' h1)
      · have g' : Geometry s'.frame W H := keeps_ok (fr_slice (keep_geometry e W H)) g h1
        have hbits : s'.br.bits = prefix1 ++ (bitsOf 8 (row + 1) ++ (rest ++ r)) := by rw [hs]
        rw [Go.bind_ok h1, Go.bind_ok (mlift_run (BR.peek_ok (by
          rw [hbits]; simp only [List.length_append, length_bitsOf, show prefix1.length = 24 from rfl]; omega))), hbits,
          peek32 (by omega), show 0x100 + (row + 1) = 0x101 + row from by omega, isSlice_row hrow, if_pos rfl]
        exact ih fuel s' r g' (by rw [hs]) (by rw [hbits, hc]; simp only [List.append_assoc]) hr

theorem picRun_only {e : PicEnv} (he : Plain e) {W H : Nat} (hp : PastOK e W H) {m : MB}
    (g : Geometry m.frame W H) (hlat : m.br.later = []) (h : (picRun e m).1 = .panic) :
    ∃ l r, m.br.bits = l ++ r ∧ PictureRisk e W H m.br.pos l := by
  unfold picRun at h
  rcases Traps.bind_panic_inv h with h | ⟨u, s1, h1, h⟩
  · exact sliceLoop_only he hp _ m g hlat h
  · exact absurd h (safe_mlift safe_nextStartCode s1).1

theorem picRun_sure {e : PicEnv} (he : Plain e) {W H : Nat} (hp : PastOK e W H) {m : MB} {l r : List Bool}
    (g : Geometry m.frame W H) (hl : PictureFault e W H m.br.pos l) (hb : m.br.bits = l ++ r) (hr : 24 ≤ r.length) :
    (picRun e m).1 = .panic := by
  unfold picRun
  rcases sliceLoop_sure he hp hl (fuelOf m.br) m r g rfl hb hr with h | h
  · exact Reads.bind_panic' h
  · exact absurd h (sliceLoop_term e _ m (by rw [fuelOf_eq]; omega))

end Mpeg.Video
