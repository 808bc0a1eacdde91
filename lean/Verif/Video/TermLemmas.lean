/-
The decoder returns: lemmas on the loops over macroblocks, slices, pictures.
-/
import Verif.Video.MovesLemmas
import Verif.Video.TermSpec
import Verif.PS.AcceptProps
set_option linter.all false
namespace Mpeg.Video
open Spec
open PES (NoHang)

/-! ### macroblocks -/

theorem nohang_mlift {α : Type} {m : Go BR α} (h : NoHang m) : NoHang (MB.lift m) := fun s => h s.br
theorem nohang_read (k : Nat) : NoHang (BR.read k) := .of_safe (BR.safe_read _)
theorem nohang_get {σ : Type} : NoHang (Go.get : Go σ σ) := fun s => by simp
theorem nohang_modify {σ : Type} (f : σ → σ) : NoHang (Go.modify f) := fun s => by simp
theorem nohang_throw {σ α : Type} (e : Err) : NoHang (Go.throw e : Go σ α) := fun s => by simp
theorem nohang_check {σ : Type} (c : Bool) (e : Err) : NoHang (Go.check c e : Go σ Unit) := .of_safe .check
theorem nohang_orPanic {σ α : Type} : ∀ x : Option α, NoHang (orPanic x : Go σ α)
  | some _ => .pure _
  | none => .panic

theorem nohang_mbType (pct : Nat) : NoHang (mbType pct) := by
  unfold mbType
  exact .ite (.of_safe (safe_huffDecode (PrefixFree.ne_nil pf_iType) (by decide)))
    (.ite (.of_safe (safe_huffDecode (PrefixFree.ne_nil pf_pType) (by decide)))
    (.ite (.of_safe (safe_huffDecode (PrefixFree.ne_nil pf_bType) (by decide))) .panic))
theorem nohang_macroblockMode (e : PicEnv) : NoHang (macroblockMode e) := by
  unfold macroblockMode
  exact .bind (nohang_mbType _) fun _ => .bind (.opt (nohang_read _)) fun _ => .bind (.opt (nohang_read _)) fun _ =>
    .bind (.opt (.of_safe BR.safe_read1)) fun _ => .pure _
theorem nohang_motionVectorPart (e : PicEnv) (info : MvInfo) (r s t : Nat) : NoHang (motionVectorPart e info r s t) := by
  unfold motionVectorPart readMotion
  exact .bind (nohang_mlift (.bind (.of_safe (safe_huffDecode (PrefixFree.ne_nil pf_motion) (by decide))) fun _ =>
    .bind (.opt (nohang_read _)) fun _ => .pure _)) fun _ => .ite .panic (nohang_modify _)
theorem nohang_motionVector (e : PicEnv) (info : MvInfo) (r s : Nat) : NoHang (motionVector e info r s) :=
  .bind (nohang_motionVectorPart e info r s 0) fun _ => nohang_motionVectorPart e info r s 1
theorem nohang_motionVectors (e : PicEnv) (s : Nat) (m : Mode) : NoHang (motionVectors e s m) := by
  unfold motionVectors
  refine .bind (nohang_orPanic _) fun info => .ite ?_ ?_
  · exact .bind (.opt (nohang_mlift (nohang_read _))) fun _ => nohang_motionVector e info 0 s
  · exact .bind (nohang_mlift (nohang_read _)) fun _ => .bind (nohang_motionVector e info 0 s) fun _ =>
      .bind (nohang_mlift (nohang_read _)) fun _ => nohang_motionVector e info 1 s
theorem nohang_codedBlockPattern (cf : Nat) : NoHang (codedBlockPattern cf) := fun s => by
  have := (safe_huffDecode (t := cbpTable) (PrefixFree.ne_nil pf_cbp) (by decide) s).2
  unfold codedBlockPattern decodeCbp
  cases h : huffDecode cbpTable s with
  | mk r s' =>
    rw [h] at this
    cases r
    · dsimp only; split <;> simp
    · dsimp only; split <;> simp
    · simp
    · exact absurd rfl this
theorem nohang_copySkipped (e : PicEnv) (row : Nat) (addr : Option Nat) (incr : Nat) :
    NoHang (copySkipped e row addr incr) := fun s => by
  unfold copySkipped
  cases addr with
  | none => simp
  | some a =>
    dsimp only
    split
    · split
      · exact (NoHang.bind (nohang_orPanic _) fun f => nohang_modify _ :
          NoHang (orPanic (pframeCopy row (a + 1) (incr - 1) s.frame e.past) >>= fun f =>
            (Go.modify fun s => { s with frame := f } : Go MB Unit))) s
      · split
        · exact (NoHang.bind (nohang_orPanic _) fun f => nohang_modify _ :
            NoHang (orPanic (bframeCopy e s.mvd row (a + 1) (incr - 1) s.frame) >>= fun f =>
              (Go.modify fun s => { s with frame := f } : Go MB Unit))) s
        · simp
    · simp
theorem nohang_mbBlock (e : PicEnv) (intra coded : Bool) (i : Nat) (b : Block) : NoHang (mbBlock e intra coded i b) :=
  fun s => by
  unfold mbBlock
  cases coded with
  | false => simp
  | true =>
    rw [if_pos rfl]
    have := (C47_partial b s.dcp e.pce.intraVLCFormat (colorChannel i) intra s.br).1
    cases h : readBlock b s.dcp e.pce.intraVLCFormat (colorChannel i) intra s.br with
    | mk r s' =>
      rw [h] at this
      cases r
      · simp
      · simp
      · simp
      · exact absurd rfl this
theorem nohang_mbBlocks (e : PicEnv) (intra dct : Bool) (coded : Nat → Bool) (addr row : Nat) :
    ∀ k i b, NoHang (mbBlocks e intra dct coded addr row k i b)
  | 0, _, _ => .pure _
  | k + 1, i, b => .bind (nohang_mbBlock _ _ _ _ _) fun _ => .bind nohang_get fun _ => .bind (nohang_orPanic _) fun _ =>
      .bind (nohang_modify _) fun _ => nohang_mbBlocks e intra dct coded addr row k _ _
theorem nohang_mbFinish (e : PicEnv) (row a : Nat) (m : Mode) (cbp : Nat) : NoHang (mbFinish e row a m cbp) :=
  .bind (nohang_mbBlocks _ _ _ _ _ _ _ _ _) fun _ => .pure _
theorem nohang_mbPattern (e : PicEnv) (row a : Nat) (m : Mode) : NoHang (mbPattern e row a m) := by
  unfold mbPattern
  refine .ite (fun s => ?_) (nohang_mbFinish _ _ _ _ _)
  have := nohang_mlift (nohang_codedBlockPattern e.se.chromaFormat) s
  unfold mbCoded
  cases h : MB.lift (codedBlockPattern e.se.chromaFormat) s with
  | mk r s' =>
    rw [h] at this
    cases r with
    | ok c => exact nohang_mbFinish e row a m c s'
    | err x => simp
    | panic => simp
    | hang => exact absurd rfl this
theorem nohang_mbVectors (e : PicEnv) (m : Mode) : NoHang (mbVectors e m) := by
  unfold mbVectors
  exact .bind (.opt (.bind (nohang_mlift (nohang_read _)) fun _ => nohang_modify _)) fun _ =>
    .bind (.opt (nohang_motionVectors _ _ _)) fun _ => .bind (.opt (nohang_motionVectors _ _ _)) fun _ =>
    .bind (nohang_modify _) fun _ => .opt (nohang_mlift (.of_safe safe_markerBit))
theorem nohang_mbRest (e : PicEnv) (row : Nat) (addr : Option Nat) (incr : Nat) : NoHang (mbRest e row addr incr) := by
  unfold mbRest
  exact .bind (nohang_copySkipped _ _ _ _) fun _ => .bind (nohang_modify _) fun _ =>
    .bind (nohang_mlift (nohang_macroblockMode e)) fun _ => .bind (nohang_modify _) fun _ =>
    .bind (nohang_mbVectors _ _) fun _ => nohang_mbPattern _ _ _ _

theorem nohang_macroblock (e : PicEnv) (row : Nat) (addr : Option Nat) : NoHang (macroblock e row addr) := by
  rw [macroblock_eq]; exact .bind (nohang_mlift (.of_safe safe_mbIncrement)) fun _ => nohang_mbRest _ _ _ _

/-- A macroblock consumes at least one bit (its address increment). -/
theorem macroblock_dec {e : PicEnv} {row : Nat} {addr : Option Nat} {s s' : MB} {a : Nat}
    (h : macroblock e row addr s = (.ok a, s')) : s'.br.size < s.br.size := by
  rw [macroblock_eq] at h
  obtain ⟨n, s1, h1, h2⟩ := Go.bind_eq_ok h
  have hm : mbIncrement s.br = (.ok n, s1.br) := by
    unfold MB.lift at h1
    rw [Prod.mk.injEq] at h1
    rw [← h1.1, ← h1.2]
  obtain ⟨k, c, v, _, hc, took⟩ := mbIncrement_inv hm
  have h3 := size_took took
  have h4 : 0 < c.length := List.length_pos_iff.mpr (PrefixFree.ne_nil pf_addr c v hc)
  have h5 := (mv_mbRest e row addr n s1).size
  rw [h2] at h5
  simp only [List.length_append] at h3
  simp only at h5
  omega

theorem mbLoop_term (e : PicEnv) (row : Nat) : ∀ (f : Nat) (addr : Option Nat) (s : MB), s.br.size < f →
    (mbLoop e row f addr s).1 ≠ .hang
  | 0, _, _, h => absurd h (Nat.not_lt_zero _)
  | f + 1, addr, s, h => by
    unfold mbLoop
    have h1 := nohang_macroblock e row addr s
    cases hm : macroblock e row addr s with
    | mk r s1 =>
      rw [hm] at h1
      cases r with
      | err x => rw [Go.bind_err hm]; simp
      | panic => rw [Go.bind_panic hm]; simp
      | hang => exact absurd rfl h1
      | ok a =>
        rw [Go.bind_ok hm]
        have hd := macroblock_dec hm
        by_cases hl : s1.br.bits.length < 23
        · have e1 : MB.lift (BR.peek 23) s1 = (.err s1.br.failErr, { s1 with br := s1.br.failTo }) := by
            unfold MB.lift; rw [BR.peek_short hl]
          rw [Go.bind_err e1]; simp
        · have e1 : MB.lift (BR.peek 23) s1 = (.ok (natOfBits (s1.br.bits.take 23)), s1) := by
            unfold MB.lift; rw [BR.peek_ok (by omega)]
          rw [Go.bind_ok e1]
          split
          · simp
          · exact mbLoop_term e row f _ s1 (by omega)

theorem fuelOf_eq (s : BR) : fuelOf s = s.size + 1 := rfl

theorem nohang_sliceHeader (v : Nat) : NoHang (sliceHeader v) := by
  unfold sliceHeader
  exact .bind (.opt (nohang_read _)) fun _ => .bind (nohang_read _) fun _ => .bind (.of_safe (BR.safe_peek _)) fun _ =>
    .bind (.opt (.bind (.of_safe BR.safe_read1) fun _ => .bind (.of_safe BR.safe_read1) fun _ =>
      .bind (nohang_read _) fun _ => .bind (nohang_check _ _) fun _ => .bind (.of_safe safe_readExtra) fun _ => .pure _))
      fun _ => .bind (.of_safe (BR.safe_skip _)) fun _ => .pure _

/-- what follows the start code of a slice -/
def sliceRest (e : PicEnv) (code : Nat) : Go MB Unit := do
  Go.check (isSlice code) .unexpectedStartCode
  let row := code % 256 - 1
  let s ← Go.get
  if s.frame.y.len < 16 * row * s.frame.yStride ∨ s.frame.cb.len < 8 * row * s.frame.cStride ∨
      s.frame.cr.len < 8 * row * s.frame.cStride then Go.panic
  else do
    let qsc ← MB.lift (sliceHeader e.sh.verticalSizeValue)
    Go.modify fun s => { s with dcp := DcPred.reset e.pce.intraDCPrecision, mvd := MVD.init, qsc := qsc }
    mbLoopAll e row
    MB.lift nextStartCode
theorem slice_eq (e : PicEnv) : slice e = MB.lift (BR.read 32) >>= sliceRest e := rfl
theorem mv_sliceRest (e : PicEnv) (code : Nat) : Go.Mv MB.br (sliceRest e code) := by
  unfold sliceRest
  exact .bind .check fun _ => .bind .get fun _ => .ite .panic
    (.bind (mv_mlift (mv_sliceHeader _)) fun _ => .bind (.modify fun _ => rfl) fun _ =>
      .bind (fun s => mv_mbLoop e _ _ _ s) fun _ => mv_mlift mv_nextStartCode)
theorem nohang_slice (e : PicEnv) : NoHang (slice e) := by
  unfold slice
  exact .bind (nohang_mlift (nohang_read _)) fun _ => .bind (nohang_check _ _) fun _ => .bind nohang_get fun _ =>
    .ite .panic (.bind (nohang_mlift (nohang_sliceHeader _)) fun _ => .bind (nohang_modify _) fun _ =>
      .bind (fun s => mbLoop_term e _ _ _ s (by rw [fuelOf_eq]; omega)) fun _ =>
        nohang_mlift (.of_safe safe_nextStartCode))

theorem slice_dec {e : PicEnv} {s s' : MB} {u : Unit} (h : slice e s = (.ok u, s')) : s'.br.size < s.br.size := by
  rw [slice_eq] at h
  obtain ⟨n, s1, h1, h2⟩ := Go.bind_eq_ok h
  have hm : BR.read 32 s.br = (.ok n, s1.br) := by
    unfold MB.lift at h1
    rw [Prod.mk.injEq] at h1
    rw [← h1.1, ← h1.2]
  obtain ⟨l, took, hl⟩ := BR.read_inv hm
  have h3 := size_took took
  have h5 := (mv_sliceRest e n s1).size
  rw [h2] at h5
  simp only at h5
  omega

theorem sliceLoop_term (e : PicEnv) : ∀ (f : Nat) (s : MB), s.br.size < f → (sliceLoop e f s).1 ≠ .hang
  | 0, _, h => absurd h (Nat.not_lt_zero _)
  | f + 1, s, h => by
    unfold sliceLoop
    have h1 := nohang_slice e s
    cases hm : slice e s with
    | mk r s1 =>
      rw [hm] at h1
      cases r with
      | err x => rw [Go.bind_err hm]; simp
      | panic => rw [Go.bind_panic hm]; simp
      | hang => exact absurd rfl h1
      | ok a =>
        rw [Go.bind_ok hm]
        have hd := slice_dec hm
        by_cases hl : s1.br.bits.length < 32
        · have e1 : MB.lift (BR.peek 32) s1 = (.err s1.br.failErr, { s1 with br := s1.br.failTo }) := by
            unfold MB.lift; rw [BR.peek_short hl]
          rw [Go.bind_err e1]; simp
        · have e1 : MB.lift (BR.peek 32) s1 = (.ok (natOfBits (s1.br.bits.take 32)), s1) := by
            unfold MB.lift; rw [BR.peek_ok (by omega)]
          rw [Go.bind_ok e1]
          split
          · exact sliceLoop_term e f s1 (by omega)
          · simp

theorem nohang_pictureData : NoHang pictureData := fun s => by
  unfold pictureData
  split
  · rename_i sh se ph pce _ _ _ _
    dsimp only
    generalize hm : (⟨s.br, DcPred.reset pce.intraDCPrecision, MVD.init, 0,
      createFrameBuffer s.size.1.toNat s.size.2.toNat se.chromaFormat⟩ : MB) = m
    generalize (⟨sh, se, ph, pce, s.qm, s.fs.past, s.fs.future⟩ : PicEnv) = e
    have : ((do sliceLoop e (fuelOf s.br); MB.lift nextStartCode : Go MB Unit) m).1 ≠ .hang := by
      have h1 := sliceLoop_term e (fuelOf s.br) m (by rw [fuelOf_eq, ← hm]; exact Nat.lt_succ_self _)
      cases h : sliceLoop e (fuelOf s.br) m with
      | mk r s1 =>
        rw [h] at h1
        cases r with
        | err x => rw [Go.bind_err h]; simp
        | panic => rw [Go.bind_panic h]; simp
        | hang => exact absurd rfl h1
        | ok a => rw [Go.bind_ok h]; exact nohang_mlift (.of_safe safe_nextStartCode) s1
    generalize (do sliceLoop e (fuelOf s.br); MB.lift nextStartCode : Go MB Unit) m = r at this ⊢
    obtain ⟨r, s'⟩ := r
    cases r
    · simp
    · simp
    · simp
    · exact absurd rfl this
  · simp

theorem nohang_pictureStep : NoHang pictureStep := by
  unfold pictureStep
  refine .bind nohang_get fun s => ?_
  cases s.ph with
  | none => exact .panic
  | some ph =>
    exact .bind (nohang_modify _) fun _ => .bind nohang_pictureData fun _ => .bind (nohang_modify _) fun _ => .pure _

/-! ### the trap -/

/-- the input contains a group of pictures header followed by an extension -/
def Trapped (s : BR) : Prop := ∃ g ∈ s.segs, ∃ j, GroupThenExtension (g.drop j)

theorem Trapped.back {a b : BR} (h : Trapped b) (m : BR.Moves a b) : Trapped a := by
  obtain ⟨g, hg, j, ht⟩ := h
  obtain ⟨g', hg', j', rfl⟩ := m.segs g hg
  exact ⟨g', hg', j' + j, by rwa [List.drop_drop] at ht⟩

/-- `m` does not return only on trapped input, as long as the input is not longer than `N` bits. -/
def HangOnly {α : Type} (N : Nat) (m : Go VS α) : Prop := ∀ s : VS, s.br.size ≤ N → (m s).1 = .hang → Trapped s.br

theorem HangOnly.of_nohang {α : Type} {N : Nat} {m : Go VS α} (h : NoHang m) : HangOnly N m :=
  fun s _ hh => absurd hh (h s)
theorem HangOnly.bind {α β : Type} {N : Nat} {m : Go VS α} {f : α → Go VS β} (hm : HangOnly N m) (mv : Go.Mv VS.br m)
    (hf : ∀ a, HangOnly N (f a)) : HangOnly N (m >>= f) := by
  intro s hs hh
  have h1 := hm s hs
  have h2 := mv s
  rw [Go.bind_apply] at hh
  cases h : m s with
  | mk r s' =>
    rw [h] at h1 h2 hh
    cases r with
    | ok a => exact (hf a s' (Nat.le_trans h2.size hs) hh).back h2
    | err e => cases hh
    | panic => cases hh
    | hang => exact h1 rfl
theorem HangOnly.ite {α : Type} {N : Nat} {c : Prop} [Decidable c] {m m' : Go VS α} (h : HangOnly N m)
    (h' : HangOnly N m') : HangOnly N (if c then m else m') := by split <;> assumption


/-- `next_start_code` found a prefix: padding and zero bytes were consumed. -/
theorem nsc_inv {s s' : BR} {u : Unit} (h : nextStartCode s = (.ok u, s')) (hp : padding s.pos ≤ s.bits.length) :
    ∃ k r, BR.Took s (s.bits.take (padding s.pos) ++ zeros (8 * k)) s' ∧ s'.bits = prefix1 ++ r ∧ s'.pos % 8 = 0 := by
  have hr := nextStartCode_result s
  rw [h] at hr
  generalize hx : ((.ok u, s') : Res Unit × BR) = x at hr
  cases hr with
  | found k r hb =>
    simp only [Prod.mk.injEq] at hx
    obtain ⟨_, rfl⟩ := hx
    have hb' : (s.adv (padding s.pos)).bits = s.bits.drop (padding s.pos) := rfl
    refine ⟨k, r, ⟨?_, ?_, rfl, rfl⟩, ?_, ?_⟩
    · show s.bits = _ ++ ((s.bits.drop _).drop _)
      rw [← hb', hb, List.append_assoc]
      have : (zeros (8 * k) ++ (prefix1 ++ r)).drop (8 * k) = prefix1 ++ r := by
        rw [List.drop_append_of_le_length (by simp [zeros]), List.drop_of_length_le (by simp [zeros])]; rfl
      rw [this, ← hb, hb', List.take_append_drop]
    · show s.pos + padding s.pos + 8 * k = _
      simp only [List.length_append, List.length_take, zeros, List.length_replicate]
      omega
    · show (s.adv (padding s.pos)).bits.drop (8 * k) = _
      rw [hb, List.drop_append_of_le_length (by simp [zeros]), List.drop_of_length_le (by simp [zeros])]; rfl
    · show (s.pos + padding s.pos + 8 * k) % 8 = 0
      unfold padding
      omega
  | nonzero => cases hx
  | ended => cases hx

theorem userLoop_inv : ∀ (f : Nat) (s s' : BR) (d : List Nat), userDataLoop f s = (.ok d, s') →
    ∃ r, BR.Took s (d.flatMap (bitsOf 8)) s' ∧ (∀ x ∈ d, x < 256) ∧ s'.bits = prefix1 ++ r ∧
      ∀ j < d.length, (s.bits.drop (8 * j)).take 24 ≠ prefix1
  | 0, s, s', d, h => by cases h
  | f + 1, s, s', d, h => by
    unfold userDataLoop at h
    obtain ⟨v, s1, h1, h2⟩ := Go.bind_eq_ok h
    obtain ⟨rfl, hl, hv⟩ := BR.peek_inv h1
    have hl24 : (s1.bits.take 24).length = 24 := by rw [List.length_take]; omega
    split at h2
    · rename_i hc
      rw [Go.pure_apply, Prod.mk.injEq] at h2
      obtain ⟨h2, rfl⟩ := h2
      cases h2
      refine ⟨s1.bits.drop 24, .refl _, by simp, ?_, by simp⟩
      have hp1 : prefix1 = bitsOf 24 startCodePrefix := by decide
      rw [hp1]
      rw [← hc, hv, bitsOf_natOfBits' hl24, List.take_append_drop]
    · rename_i hc
      obtain ⟨b, s2, h3, h4⟩ := Go.bind_eq_ok h2
      obtain ⟨d', s3, h5, h6⟩ := Go.bind_eq_ok h4
      rw [Go.pure_apply, Prod.mk.injEq] at h6
      obtain ⟨h6, rfl⟩ := h6
      cases h6
      obtain ⟨l1, t1, hl1, hv1⟩ := BR.read_inv h3
      obtain ⟨r, t2, hl2, hb, hn⟩ := userLoop_inv f s2 s3 d' h5
      have e1 : l1 = bitsOf 8 b := by rw [hv1, bitsOf_natOfBits' hl1]
      have hb8 : b < 256 := by rw [hv1]; exact Nat.lt_of_lt_of_le (natOfBits_lt l1) (by rw [hl1]; decide)
      refine ⟨r, ?_, ?_, hb, ?_⟩
      · rw [List.flatMap_cons, ← e1]; exact t1.trans t2
      · intro x hx
        rcases List.mem_cons.mp hx with rfl | hx
        · exact hb8
        · exact hl2 x hx
      · intro j hj
        cases j with
        | zero =>
          intro hh
          rw [Nat.mul_zero, List.drop_zero] at hh
          rw [hh] at hv
          exact hc (by rw [hv]; decide)
        | succ j =>
          have := hn j (by rw [List.length_cons] at hj; omega)
          rw [t1.bits, List.drop_append, List.drop_of_length_le (by omega), List.nil_append,
            show 8 * (j + 1) - l1.length = 8 * j by omega]
          exact this

theorem userData_inv {s s' : BR} {d : List Nat} (hp : s.pos % 8 = 0) (h : userData s = (.ok d, s')) :
    BR.Took s (encUser d) s' ∧ (∀ x ∈ d, x < 256) ∧ s'.pos % 8 = 0 ∧
      ∀ j < d.length, ((d.flatMap (bitsOf 8) ++ s'.bits).drop (8 * j)).take 24 ≠ prefix1 := by
  unfold userData at h
  obtain ⟨u, s1, h1, h2⟩ := Go.bind_eq_ok h
  obtain ⟨d', s2, h3, h4⟩ := Go.bind_eq_ok h2
  obtain ⟨u', s3, h5, h6⟩ := Go.bind_eq_ok h4
  cases h6
  have t1 := PS.codeAssert_inv h1
  obtain ⟨r, t2, hl, hb, hn⟩ := userLoop_inv _ s1 s2 _ h3
  have p1 : s1.pos % 8 = 0 := by rw [t1.pos, length_bitsOf]; omega
  have p2 : s2.pos % 8 = 0 := by
    have : (d.flatMap (bitsOf 8)).length = 8 * d.length := length_encMat d
    rw [t2.pos, this]; omega
  have pad : padding s2.pos = 0 := by unfold padding; omega
  obtain ⟨k, r', t3, hb', p3⟩ := nsc_inv h5 (by rw [pad]; omega)
  rw [pad, List.take_zero, List.nil_append] at t3
  have hk : zeros (8 * 0) ++ (prefix1 ++ r) = zeros (8 * k) ++ (prefix1 ++ r') := by
    have := t3.bits
    rw [hb, hb'] at this
    exact this
  have := zeros_prefix_unique hk
  obtain ⟨rfl, rfl⟩ := this
  have e3 : s2 = s' := by
    have h1 := t3.bits; have h2 := t3.pos; have h3 := t3.stop; have h4 := t3.later
    simp [zeros] at h1 h2
    cases s2; cases s'; simp_all
  subst e3
  refine ⟨t1.trans t2, hl, p2, ?_⟩
  rw [← t2.bits]; exact hn

theorem extUser_one_trap : ∀ (f : Nat) (s : VS), s.br.size + 2 ≤ f → s.br.pos % 8 = 0 →
    (extensionAndUserData 1 f s).1 = .hang → UserThenExtension s.br.bits
  | 0, s, h, _, _ => absurd h (by omega)
  | f + 1, s, h, hp, he => by
    by_cases h1 : s.br.bits.length < 32
    · have e : VS.lift (BR.peek 32) s = (.err s.br.failErr, { s with br := s.br.failTo }) := by
        unfold VS.lift; rw [BR.peek_short h1]
      rw [extensionAndUserData, Go.bind_err e] at he
      cases he
    · by_cases hc : natOfBits (s.br.bits.take 32) = extensionStartCode
      · have : s.br.bits = bitsOf 32 0x1B5 ++ s.br.bits.drop 32 := by
          rw [show (0x1B5 : Nat) = extensionStartCode from rfl, ← hc,
            bitsOf_natOfBits' (by rw [List.length_take]; omega), List.take_append_drop]
        rw [this]
        exact .ext _
      · rw [extensionAndUserData, Go.bind_ok (lift_ok (BR.peek_ok (by omega))), if_neg hc] at he
        split at he
        · rename_i hu
          have hlt := userData_dec s (by omega) hu
          have hs := safe_vlift safe_userData s
          rw [Go.bind_apply] at he
          cases hm : VS.lift userData s with
          | mk r s1 =>
            rw [hm] at hlt hs he
            cases r with
            | ok u =>
              have hlt' : s1.br.size < s.br.size := hlt
              have hm' : userData s.br = (.ok u, s1.br) := by
                unfold VS.lift at hm
                rw [Prod.mk.injEq] at hm
                rw [← hm.1, ← hm.2]
              obtain ⟨t, hl, p', hn⟩ := userData_inv hp hm'
              have ih := extUser_one_trap f s1 (by omega) p' he
              rw [t.bits]
              exact .user u s1.br.bits hl hn ih
            | err e => cases he
            | panic => cases he
            | hang => exact absurd rfl hs.2
        · cases he

theorem vlift_inv {α : Type} {m : Go BR α} {s s' : VS} {a : α} (h : VS.lift m s = (.ok a, s')) :
    m s.br = (.ok a, s'.br) := by
  unfold VS.lift at h
  rw [Prod.mk.injEq] at h
  rw [← h.1, ← h.2]

theorem gop_inv {s s' : BR} {g : GOPHeader} (h : readGOPHeader s = (.ok g, s')) :
    ∃ t pad k r, s.bits = bitsOf 32 0x1B8 ++ (t ++ (pad ++ (zeros (8 * k) ++ s'.bits))) ∧ t.length = 27 ∧ pad.length < 8 ∧
      s'.bits = prefix1 ++ r ∧ s'.pos % 8 = 0 := by
  unfold readGOPHeader at h
  obtain ⟨_, s1, h1, h⟩ := Go.bind_eq_ok h
  obtain ⟨_, s2, h2, h⟩ := Go.bind_eq_ok h
  obtain ⟨c1, s3, h3, h⟩ := Go.bind_eq_ok h
  obtain ⟨c2, s4, h4, h⟩ := Go.bind_eq_ok h
  obtain ⟨_, s5, h5, h⟩ := Go.bind_eq_ok h
  cases h
  have t1 := PS.codeAssert_inv h1
  obtain ⟨l2, t2, hl2, _⟩ := BR.read_inv h2
  have t3 := BR.read1_inv h3
  have t4 := BR.read1_inv h4
  have hpad : padding s4.pos < 8 := by unfold padding; omega
  by_cases hle : padding s4.pos ≤ s4.bits.length
  · obtain ⟨k, r, t5, hb, hp⟩ := nsc_inv h5 hle
    have t := t1.trans (t2.trans (t3.trans (t4.trans t5)))
    refine ⟨l2 ++ [c1, c2], s4.bits.take (padding s4.pos), k, r, ?_, by simp [hl2], ?_, hb, hp⟩
    · rw [t.bits]; simp [List.append_assoc]
    · rw [List.length_take]; omega
  · have hr := nextStartCode_result s4
    rw [h5] at hr
    have he : (s4.adv (padding s4.pos)).bits = [] := by
      show s4.bits.drop _ = []
      exact List.drop_of_length_le (by omega)
    generalize hx : ((.ok _, s') : Res Unit × BR) = x at hr
    cases hr with
    | found k r hb =>
      rw [he] at hb
      have := congrArg List.length hb
      simp [prefix1, zeros] at this
    | nonzero => cases hx
    | ended => cases hx

theorem hang_group {N : Nat} (fuel : Nat) (hf : N + 2 ≤ fuel) : HangOnly N (groupHeader fuel) := by
  intro s hs hh
  unfold groupHeader at hh
  by_cases h1 : s.br.bits.length < 32
  · have e : VS.lift (BR.peek 32) s = (.err s.br.failErr, { s with br := s.br.failTo }) := by
      unfold VS.lift; rw [BR.peek_short h1]
    rw [Go.bind_err e] at hh
    cases hh
  · rw [Go.bind_ok (lift_ok (BR.peek_ok (by omega)))] at hh
    cases hc : (natOfBits (s.br.bits.take 32) == groupStartCode) with
    | false => rw [hc] at hh; cases hh
    | true =>
      rw [hc, Go.opt_true] at hh
      have hs' := safe_vlift safe_readGOPHeader s
      have hmv := mv_vlift mv_readGOPHeader s
      cases hm : VS.lift readGOPHeader s with
      | mk r s1 =>
        rw [hm] at hs' hmv
        cases r with
        | err e => rw [Go.bind_err hm] at hh; cases hh
        | panic => exact absurd rfl hs'.1
        | hang => exact absurd rfl hs'.2
        | ok g =>
          rw [Go.bind_ok hm, Go.bind_ok (Go.modify_apply ..)] at hh
          obtain ⟨t, pad, k, r, hb, ht, hpad, hb', hp⟩ := gop_inv (vlift_inv hm)
          have := extUser_one_trap fuel { s1 with gop := some g, fs := s1.fs.markGOP, frameCounter := 0 } (by
            show s1.br.size + 2 ≤ fuel
            have := hmv.size
            simp only at this
            omega) hp hh
          refine ⟨s.br.bits, by simp [BR.segs], 0, ?_⟩
          rw [List.drop_zero, hb]
          exact .mk t pad k _ ht hpad this

theorem hang_pictureHeader {N : Nat} : HangOnly N pictureHeader :=
  .of_nohang (.of_safe (safe_storeHeader safe_readPictureHeader))

theorem hang_more {N : Nat} (fuel : Nat) (hf : N + 2 ≤ fuel) : HangOnly N (moreFrames fuel) := by
  unfold moreFrames
  refine .bind (hang_group fuel hf) (mv_groupHeader fuel) fun _ => .bind hang_pictureHeader mv_pictureHeader fun _ =>
    .bind (.of_nohang (.of_safe (safe_storeHeader safe_readPictureCodingExtension))) mv_pictureCodingExtension fun _ =>
    .bind (fun s hs hh => absurd hh (extUser_term 2 (by decide) fuel s (by show s.br.size + 2 ≤ fuel; omega)).1)
      (mv_extUser 2 fuel) fun _ => .of_nohang nohang_pictureStep

theorem hang_continue {N : Nat} (fuel : Nat) (hf : N + 2 ≤ fuel) : HangOnly N (continueFrames fuel) := by
  unfold continueFrames
  exact .bind (fun s hs hh => absurd hh (extUser_term 0 (by decide) fuel s (by show s.br.size + 2 ≤ fuel; omega)).1)
    (mv_extUser 0 fuel) fun _ => hang_more fuel hf

theorem hang_step {N : Nat} (fuel : Nat) (hf : N + 2 ≤ fuel) : HangOnly N (step fuel) := by
  have h1 : HangOnly N (resume fuel) := by
    unfold resume
    exact .bind (.of_nohang (nohang_vlift (.of_safe (BR.safe_peek _)))) (mv_vlift (BR.mv_peek _)) fun _ =>
      .ite (hang_more fuel hf) (.ite (.of_nohang (.bind (nohang_vlift (.of_safe (BR.safe_skip _))) fun _ => nohang_throw _))
        (.bind (.of_nohang (.of_safe safe_sequenceHeader)) mv_sequenceHeader fun _ =>
          .bind (.of_nohang (.of_safe (safe_storeHeader safe_readSequenceExtension))) mv_sequenceExtension fun _ =>
          hang_continue fuel hf))
  have h2 : HangOnly N (start fuel) := by
    unfold start
    exact .bind (.of_nohang (nohang_vlift (.of_safe safe_nextStartCode))) (mv_vlift mv_nextStartCode) fun _ =>
      .bind (.of_nohang (.of_safe safe_sequenceHeader)) mv_sequenceHeader fun _ =>
      .bind (.of_nohang (nohang_vlift (.of_safe (BR.safe_peek _)))) (mv_vlift (BR.mv_peek _)) fun _ =>
      .bind (.of_nohang (nohang_check _ _)) .check fun _ =>
      .bind (.of_nohang (.of_safe (safe_storeHeader safe_readSequenceExtension))) mv_sequenceExtension fun _ =>
        hang_continue fuel hf
  intro s hs hh
  unfold step at hh
  split at hh
  · exact h1 s hs hh
  · exact h2 s hs hh

/-! ### every picture consumes input -/

/-- `m` consumes input whenever it succeeds -/
def Eats {α : Type} (m : Go VS α) : Prop := ∀ s a s', m s = (.ok a, s') → s'.br.size < s.br.size
theorem Eats.left {α β : Type} {m : Go VS α} {f : α → Go VS β} (hm : Eats m) (hf : ∀ a, Go.Mv VS.br (f a)) :
    Eats (m >>= f) := by
  intro s a s' h
  obtain ⟨b, s1, h1, h2⟩ := Go.bind_eq_ok h
  have := hm s b s1 h1
  have h3 := (hf b s1).size
  rw [h2] at h3
  simp only at h3
  omega
theorem Eats.right {α β : Type} {m : Go VS α} {f : α → Go VS β} (hm : Go.Mv VS.br m) (hf : ∀ a, Eats (f a)) :
    Eats (m >>= f) := by
  intro s a s' h
  obtain ⟨b, s1, h1, h2⟩ := Go.bind_eq_ok h
  have := hf b s1 a s' h2
  have h3 := (hm s).size
  rw [h1] at h3
  simp only at h3
  omega
theorem Eats.ite {α : Type} {c : Prop} [Decidable c] {m m' : Go VS α} (h : Eats m) (h' : Eats m') :
    Eats (if c then m else m') := by split <;> assumption

theorem eats_pictureHeader : Eats pictureHeader := by
  intro s u s' h
  unfold pictureHeader storeHeader at h
  cases hm : VS.lift readPictureHeader s with
  | mk r s1 =>
    rw [hm] at h
    cases r with
    | err e => cases h
    | panic => cases h
    | hang => cases h
    | ok p =>
      have h1 := vlift_inv hm
      unfold readPictureHeader at h1
      obtain ⟨_, s2, h2, h3⟩ := Go.bind_eq_ok h1
      have t := PS.codeAssert_inv h2
      have h4 := size_took t
      have h5 : BR.Moves s2 s1.br := by
        have key : ∀ f : Go BR PictureHeader, BR.Mv f → f s2 = (.ok p, s1.br) → BR.Moves s2 s1.br := fun f hf he => by
          have := hf s2
          rw [he] at this
          exact this
        refine key _ ?_ h3
        mv_steps
      have h6 := h5.size
      have h7 := (mv_vlift mv_nextStartCode { s1 with ph := some p }).size
      simp only at h
      rw [h] at h7
      simp only [length_bitsOf] at h4 h7
      omega

theorem eats_more (fuel : Nat) : Eats (moreFrames fuel) :=
  .right (mv_groupHeader fuel) fun _ => .left eats_pictureHeader fun _ => .bind mv_pictureCodingExtension fun _ =>
    .bind (mv_extUser 2 fuel) fun _ => mv_pictureStep
theorem eats_step (fuel : Nat) : Eats (step fuel) := by
  have h1 : Eats (resume fuel) := by
    unfold resume
    refine .right (mv_vlift (BR.mv_peek _)) fun _ => .ite (eats_more fuel) (.ite ?_ ?_)
    · intro s a s' h
      obtain ⟨_, _, _, h2⟩ := Go.bind_eq_ok h
      cases h2
    · exact .right mv_sequenceHeader fun _ => .right mv_sequenceExtension fun _ => .right (mv_extUser 0 fuel) fun _ =>
        eats_more fuel
  have h2 : Eats (start fuel) := by
    unfold start
    exact .right (mv_vlift mv_nextStartCode) fun _ => .right mv_sequenceHeader fun _ =>
      .right (mv_vlift (BR.mv_peek _)) fun _ => .right .check fun _ => .right mv_sequenceExtension fun _ =>
      .right (mv_extUser 0 fuel) fun _ => eats_more fuel
  intro s a s' h
  unfold step at h
  split at h
  · exact h1 s a s' h
  · exact h2 s a s' h

theorem nextLoop_hang (fuel : Nat) : ∀ (k : Nat) (s : VS), s.br.size + 2 ≤ fuel → s.br.size < k →
    (nextLoop fuel k s).1 = .hang → Trapped s.br
  | 0, s, _, hk, _ => absurd hk (Nat.not_lt_zero _)
  | k + 1, s, hf, hk, hh => by
    unfold nextLoop at hh
    have h1 := hang_step (N := s.br.size) fuel hf s (Nat.le_refl _)
    have h2 := mv_step fuel s
    cases h : step fuel s with
    | mk r s1 =>
      rw [h] at h1 h2
      cases r with
      | err e => rw [Go.bind_err h] at hh; cases hh
      | panic => rw [Go.bind_panic h] at hh; cases hh
      | hang => exact h1 rfl
      | ok f =>
        rw [Go.bind_ok h, Go.bind_ok (Go.get_apply s1)] at hh
        have h3 := eats_step fuel s f s1 h
        cases hph : s1.ph with
        | none => rw [hph] at hh; cases hh
        | some ph =>
          rw [hph] at hh
          simp only at hh
          split at hh
          · rw [Go.bind_ok (Go.modify_apply ..)] at hh; cases hh
          · exact (nextLoop_hang fuel k s1 (by omega) (by omega) hh).back h2

theorem next_hang (fuel k : Nat) (s : VS) (hf : s.br.size + 2 ≤ fuel) (hk : s.br.size < k)
    (h : (VS.next fuel k s).1 = .hang) : Trapped s.br := by
  unfold VS.next at h
  split at h
  · cases h
  · exact nextLoop_hang fuel k s hf hk h


/-! ### the trap is one -/

theorem userExt_starts {l : List Bool} (h : UserThenExtension l) : ∃ r, l = prefix1 ++ r := by
  cases h with
  | ext r =>
    refine ⟨bitsOf 8 0xB5 ++ r, ?_⟩
    have : bitsOf 32 0x1B5 = prefix1 ++ bitsOf 8 0xB5 := by decide
    rw [this, List.append_assoc]
  | user d r _ _ _ =>
    refine ⟨bitsOf 8 0xB2 ++ (d.flatMap (bitsOf 8) ++ r), ?_⟩
    have : bitsOf 32 0x1B2 = prefix1 ++ bitsOf 8 0xB2 := by decide
    unfold encUser
    rw [this]
    simp only [List.append_assoc]

theorem extUser_never {l : List Bool} (h : UserThenExtension l) : ∀ (f pos : Nat) (stop : Err)
    (later : List (List Bool × Err)) (s : VS), s.br = ⟨l, pos, stop, later⟩ → pos % 8 = 0 →
    (extensionAndUserData 1 f s).1 = .hang := by
  induction h with
  | ext r =>
    intro f pos stop later s hs _
    have h1 : 32 ≤ s.br.bits.length := by rw [hs]; simp
    have h2 : natOfBits (s.br.bits.take 32) = extensionStartCode := by
      rw [hs]
      show natOfBits ((bitsOf 32 0x1B5 ++ r).take 32) = _
      rw [List.take_append_of_le_length (by simp), List.take_of_length_le (by simp)]
      decide
    rw [extUser_one_spin f s h1 h2]
  | user d r hd hn hr ih =>
    intro f pos stop later s hs hp
    cases f with
    | zero => rfl
    | succ f =>
      obtain ⟨r', rfl⟩ := userExt_starts hr
      have h1 : 32 ≤ s.br.bits.length := by rw [hs]; simp [encUser]
      have h2 : natOfBits (s.br.bits.take 32) = userDataStartCode := by
        rw [hs]
        show natOfBits ((encUser d ++ (prefix1 ++ r')).take 32) = _
        unfold encUser
        rw [List.append_assoc, List.take_append_of_le_length (by simp), List.take_of_length_le (by simp)]
        decide
      rw [extensionAndUserData, Go.bind_ok (lift_ok (BR.peek_ok h1)), h2, if_neg (by decide), if_pos rfl]
      have h3 := userData_enc (stop := stop) (later := later) d hd hn hp
      rw [← hs] at h3
      rw [Go.bind_ok (lift_ok h3)]
      refine ih f (pos + (encUser d).length) stop later _ rfl ?_
      have : (d.flatMap (bitsOf 8)).length = 8 * d.length := length_encMat d
      simp only [encUser, List.length_append, length_bitsOf, this]; omega


theorem nextLoop_eats (fuel : Nat) : ∀ (k : Nat), Eats (nextLoop fuel k)
  | 0, s, a, s', h => by cases h
  | k + 1, s, a, s', h => by
    unfold nextLoop at h
    obtain ⟨f1, s1, h1, h2⟩ := Go.bind_eq_ok h
    have hd := eats_step fuel s f1 s1 h1
    rw [Go.bind_ok (Go.get_apply s1)] at h2
    cases hph : s1.ph with
    | none => rw [hph] at h2; cases h2
    | some ph =>
      rw [hph] at h2
      simp only at h2
      split at h2
      · rw [Go.bind_ok (Go.modify_apply ..), Go.pure_apply, Prod.mk.injEq] at h2
        rw [← h2.2]
        exact hd
      · exact Nat.lt_trans (nextLoop_eats fuel k s1 a s' h2) hd

/-! ### a test for the trap -/

theorem userExt_code {l : List Bool} (h : UserThenExtension l) :
    natOfBits (l.take 32) = 0x1B5 ∨ natOfBits (l.take 32) = 0x1B2 := by
  cases h with
  | ext r =>
    left
    rw [List.take_append_of_le_length (by simp), List.take_of_length_le (by simp)]; decide
  | user d r _ _ _ =>
    right
    unfold encUser
    rw [List.append_assoc, List.take_append_of_le_length (by simp), List.take_of_length_le (by simp)]; decide

/-- a necessary condition for `GroupThenExtension` that can be evaluated -/
def trapTest (l : List Bool) : Bool :=
  decide (natOfBits (l.take 32) = 0x1B8) && (List.range (l.length + 1)).any fun m =>
    (decide (natOfBits ((l.drop m).take 32) = 0x1B5) || decide (natOfBits ((l.drop m).take 32) = 0x1B2)) &&
      ((l.take m).drop 66).all (!·)

theorem trapTest_of {l : List Bool} (h : GroupThenExtension l) : trapTest l = true := by
  cases h with
  | mk t pad k r ht hp hr =>
    have hc := userExt_code hr
    unfold trapTest
    rw [Bool.and_eq_true, decide_eq_true_eq, List.any_eq_true]
    refine ⟨?_, 59 + pad.length + 8 * k, ?_, ?_⟩
    · rw [List.take_append_of_le_length (by simp), List.take_of_length_le (by simp)]; decide
    · rw [List.mem_range]
      simp only [List.length_append, length_bitsOf, ht, zeros, List.length_replicate]
      omega
    · have e1 : bitsOf 32 0x1B8 ++ (t ++ (pad ++ (zeros (8 * k) ++ r))) =
          (bitsOf 32 0x1B8 ++ t ++ pad ++ zeros (8 * k)) ++ r := by simp only [List.append_assoc]
      have e2 : (bitsOf 32 0x1B8 ++ t ++ pad ++ zeros (8 * k)).length = 59 + pad.length + 8 * k := by
        simp only [List.length_append, length_bitsOf, ht, zeros, List.length_replicate]
      rw [e1, ← e2, List.drop_left, List.take_left, Bool.and_eq_true, Bool.or_eq_true, decide_eq_true_eq,
        decide_eq_true_eq]
      refine ⟨hc, ?_⟩
      have e3 : (bitsOf 32 0x1B8 ++ t ++ pad).length ≤ 66 := by
        simp only [List.length_append, length_bitsOf, ht]; omega
      rw [List.drop_append, List.drop_of_length_le e3, List.nil_append, List.all_eq_true]
      intro x hx
      have := List.mem_of_mem_drop hx
      rw [zeros, List.mem_replicate] at this
      rw [this.2]; rfl

theorem no_trap {l : List Bool} (h : (List.range (l.length + 1)).all (fun j => !trapTest (l.drop j)) = true) (j : Nat) :
    ¬ GroupThenExtension (l.drop j) := by
  intro hg
  have h1 := trapTest_of hg
  by_cases hj : j ≤ l.length
  · have := List.all_eq_true.mp h j (List.mem_range.mpr (by omega))
    rw [h1] at this; cases this
  · rw [List.drop_of_length_le (by omega)] at h1
    cases h1

/-- A decoder at a group of pictures header followed by user data and an extension makes no end of `MORE_FRAMES`. -/
theorem moreFrames_never (g : GOP) (hg : g.WF) (pad : List Bool) (n : Nat) (r : List Bool) (hr : UserThenExtension r)
    (s : VS) (pos : Nat) (stop : Err) (later : List (List Bool × Err)) (hp : pad.length = padding (pos + 59))
    (hs : s.br = ⟨encGOP g ++ (pad ++ (zeros (8 * n) ++ r)), pos, stop, later⟩) (fuel : Nat) :
    VS.lift (BR.peek 32) s = (.ok groupStartCode, s) ∧ (moreFrames fuel s).1 = .hang := by
  obtain ⟨r', rfl⟩ := userExt_starts hr
  obtain ⟨gr, hgr⟩ : ∃ gr, encGOP g = bitsOf 32 0x1B8 ++ gr := by
    unfold encGOP; simp only [List.append_assoc]; exact ⟨_, rfl⟩
  have h32 : 32 ≤ s.br.bits.length := by rw [hs, hgr]; simp
  have hcode : natOfBits (s.br.bits.take 32) = groupStartCode := by
    rw [hs, hgr]
    show natOfBits ((bitsOf 32 0x1B8 ++ gr ++ _).take 32) = _
    rw [List.append_assoc, List.take_append_of_le_length (by simp), List.take_of_length_le (by simp)]
    decide
  have hpk : VS.lift (BR.peek 32) s = (.ok groupStartCode, s) := by
    rw [lift_ok (BR.peek_ok h32), hcode]
  have hgop := readGOPHeader_enc (stop := stop) (later := later) g hg ⟨pad, n, r'⟩
    (by rw [length_encGOP]; exact hp)
  have hgop' : readGOPHeader s.br = _ := (congrArg readGOPHeader hs).trans hgop
  have hgr : (groupHeader fuel s).1 = .hang := by
    unfold groupHeader
    rw [Go.bind_ok hpk, show (groupStartCode == groupStartCode) = true from rfl, Go.opt_true,
      Go.bind_ok (lift_ok hgop'), Go.bind_ok (Go.modify_apply ..)]
    refine extUser_never hr fuel (pos + (encGOP g).length + pad.length + 8 * n) stop later _ rfl ?_
    rw [length_encGOP, hp]
    unfold padding
    omega
  refine ⟨hpk, ?_⟩
  unfold moreFrames
  generalize hx : groupHeader fuel s = x at hgr
  obtain ⟨x1, x2⟩ := x
  simp only at hgr
  subst hgr
  rw [Go.bind_hang hx]

theorem nextLoop_never {fuel : Nat} {s : VS} (h : (step fuel s).1 = .hang) (k : Nat) : (nextLoop fuel k s).1 = .hang := by
  cases k with
  | zero => rfl
  | succ k =>
    unfold nextLoop
    generalize hx : step fuel s = x at h
    obtain ⟨x1, x2⟩ := x
    simp only at h
    subst h
    rw [Go.bind_hang hx]

end Mpeg.Video
