/-
Totality of the header parsers: no panic, no endless loop, and the input only shrinks.
-/
import Verif.Video.HeaderLemmas2
import Verif.PS.Total
set_option linter.all false
namespace Mpeg.Video
open Spec
open PES (NoHang)

theorem BR.noninc_adv (s : BR) (k : Nat) : (s.adv k).size ≤ s.size := BR.size_adv s k

/-! ### alignment -/

theorem safe_alignIfNeeded : Go.Safe alignIfNeeded := by
  intro s; rw [alignIfNeeded_eq]; simp
theorem noninc_alignIfNeeded : Go.NonInc BR.size alignIfNeeded := by
  intro s; rw [alignIfNeeded_eq]; exact BR.size_adv _ _

theorem safe_nextStartCode : Go.Safe nextStartCode := by
  intro s
  have := nextStartCode_result s
  generalize nextStartCode s = r at this ⊢
  cases this <;> simp
theorem noninc_nextStartCode : Go.NonInc BR.size nextStartCode := by
  intro s
  have := nextStartCode_result s
  have h0 := BR.size_adv s (padding s.pos)
  generalize nextStartCode s = r at this ⊢
  cases this with
  | found k r h => exact Nat.le_trans (BR.size_adv _ _) h0
  | nonzero k b r hb hz hr h => exact Nat.le_trans (BR.size_adv _ _) h0
  | ended k r hr h => exact Nat.le_trans (BR.size_failTo _) (Nat.le_trans (BR.size_adv _ _) h0)

theorem safe_alignTo (c : Nat) (hc : c < 2 ^ 32) : Go.Safe (alignTo c) := by
  intro s
  have := alignTo_result c hc s
  generalize alignTo c s = r at this ⊢
  cases this <;> simp
theorem noninc_alignTo (c : Nat) (hc : c < 2 ^ 32) : Go.NonInc BR.size (alignTo c) := by
  intro s
  have := alignTo_result c hc s
  have h0 := BR.size_adv s (padding s.pos)
  generalize alignTo c s = r at this ⊢
  cases this with
  | found k h => exact Nat.le_trans (BR.size_adv _ _) h0
  | ended k h => exact Nat.le_trans (BR.size_failTo _) (Nat.le_trans (BR.size_adv _ _) h0)

theorem safe_markerBit : Go.Safe markerBit := by
  unfold markerBit; exact .bind BR.safe_read1 fun _ => .check
theorem noninc_markerBit : Go.NonInc BR.size markerBit := by
  unfold markerBit; exact .bind BR.noninc_read1 fun _ => PES.noninc_check _ _
theorem safe_startCode (c : Nat) : Go.Safe (startCode c) := PS.safe_codeAssert _ _ _
theorem noninc_startCode (c : Nat) : Go.NonInc BR.size (startCode c) := PS.noninc_codeAssert _ _ _
theorem safe_extensionID (c : Nat) : Go.Safe (extensionID c) := PS.safe_codeAssert _ _ _
theorem noninc_extensionID (c : Nat) : Go.NonInc BR.size (extensionID c) := PS.noninc_codeAssert _ _ _

theorem safe_readBytes : ∀ n, Go.Safe (readBytes n)
  | 0 => .pure _
  | n + 1 => .bind (BR.safe_read _) fun _ => .bind (safe_readBytes n) fun _ => .pure _
theorem noninc_readBytes : ∀ n, Go.NonInc BR.size (readBytes n)
  | 0 => .pure _
  | n + 1 => .bind (BR.noninc_read _) fun _ => .bind (noninc_readBytes n) fun _ => .pure _
theorem safe_readMatrix : Go.Safe readMatrix := safe_readBytes 64
theorem noninc_readMatrix : Go.NonInc BR.size readMatrix := noninc_readBytes 64

/-- one step of a proof that a parser is total -/
macro "safe_steps" : tactic => `(tactic| repeat' with_reducible first
  | refine Go.Safe.bind ?_ (fun _ => ?_)
  | exact Go.Safe.pure _
  | exact Go.Safe.check
  | exact BR.safe_read _
  | exact BR.safe_read1
  | exact BR.safe_skip _
  | exact BR.safe_peek _
  | exact safe_startCode _
  | exact safe_extensionID _
  | exact safe_markerBit
  | exact safe_nextStartCode
  | exact safe_readMatrix
  | refine Go.Safe.ignoreErr ?_
  | refine Go.Safe.opt ?_
  | refine Go.Safe.map _ ?_
  | refine Go.Safe.ite ?_ ?_)

macro "noninc_steps" : tactic => `(tactic| repeat' with_reducible first
  | refine Go.NonInc.bind ?_ (fun _ => ?_)
  | exact Go.NonInc.pure _
  | exact PES.noninc_check _ _
  | exact BR.noninc_read _
  | exact BR.noninc_read1
  | exact BR.noninc_skip _
  | exact BR.noninc_peek _
  | exact noninc_startCode _
  | exact noninc_extensionID _
  | exact noninc_markerBit
  | exact noninc_nextStartCode
  | exact noninc_readMatrix
  | exact Go.NonInc.panic
  | exact Go.NonInc.throw _
  | refine Go.NonInc.ignoreErr ?_
  | refine Go.NonInc.opt _ _ ?_
  | refine Go.NonInc.map _ ?_
  | refine Go.NonInc.ite ?_ ?_)

theorem safe_readSequenceHeader : Go.Safe readSequenceHeader := by unfold readSequenceHeader; safe_steps
theorem noninc_readSequenceHeader : Go.NonInc BR.size readSequenceHeader := by
  unfold readSequenceHeader; noninc_steps
theorem safe_readSequenceExtension : Go.Safe readSequenceExtension := by unfold readSequenceExtension; safe_steps
theorem noninc_readSequenceExtension : Go.NonInc BR.size readSequenceExtension := by
  unfold readSequenceExtension; noninc_steps
theorem safe_readGOPHeader : Go.Safe readGOPHeader := by unfold readGOPHeader; safe_steps
theorem noninc_readGOPHeader : Go.NonInc BR.size readGOPHeader := by unfold readGOPHeader; noninc_steps

/-- the extra information loop with enough fuel -/
theorem safe_extraLoop : ∀ (f : Nat) (s : BR), s.bits.length < f →
    (extraInformationLoop f s).1 ≠ .panic ∧ (extraInformationLoop f s).1 ≠ .hang
  | 0, s, h => absurd h (Nat.not_lt_zero _)
  | f + 1, s, h => by
    unfold extraInformationLoop
    by_cases h1 : s.bits.length < 1
    · rw [Go.bind_err (BR.peek_short h1)]; simp
    · rw [Go.bind_ok (BR.peek_ok (by omega))]
      split
      · rw [Go.bind_ok (BR.skip_ok (by omega))]
        by_cases h2 : (s.adv 1).bits.length < 8
        · rw [Go.bind_err (BR.read_short h2)]; simp
        · rw [Go.bind_ok (BR.read_ok (by omega))]
          have := safe_extraLoop f ((s.adv 1).adv 8) (by simp only [BR.adv, List.length_drop]; omega)
          rw [Go.bind_apply]
          cases hm : extraInformationLoop f ((s.adv 1).adv 8) with
          | mk r s' => rw [hm] at this; cases r <;> simp_all
      · simp
theorem safe_readExtra : Go.Safe readExtraInformation := fun s => safe_extraLoop _ s (by omega)
theorem noninc_extraLoop : ∀ f, Go.NonInc BR.size (extraInformationLoop f)
  | 0 => fun s => Nat.le_refl _
  | f + 1 => by
    unfold extraInformationLoop
    exact .bind (BR.noninc_peek _) fun _ => .ite (.bind (BR.noninc_skip _) fun _ => .bind (BR.noninc_read _) fun _ =>
      .bind (noninc_extraLoop f) fun _ => .pure _) (.pure _)
theorem noninc_readExtra : Go.NonInc BR.size readExtraInformation := fun s => noninc_extraLoop _ s

theorem safe_readPictureHeader : Go.Safe readPictureHeader := by
  unfold readPictureHeader
  safe_steps
  exact safe_readExtra
theorem noninc_readPictureHeader : Go.NonInc BR.size readPictureHeader := by
  unfold readPictureHeader
  noninc_steps
  exact noninc_readExtra
theorem safe_readPictureCodingExtension : Go.Safe readPictureCodingExtension := by
  unfold readPictureCodingExtension; safe_steps
theorem noninc_readPictureCodingExtension : Go.NonInc BR.size readPictureCodingExtension := by
  unfold readPictureCodingExtension; noninc_steps

theorem safe_read1OrFalse : Go.Safe read1OrFalse := by
  intro s; unfold read1OrFalse; cases hm : BR.read1 s with
  | mk r s' => cases r <;> simp
theorem noninc_read1OrFalse : Go.NonInc BR.size read1OrFalse := by
  intro s
  have := BR.noninc_read1 s
  unfold read1OrFalse; cases hm : BR.read1 s with
  | mk r s' => rw [hm] at this; cases r <;> exact this
theorem safe_display : Go.Safe readSequenceDisplayExtension := by
  unfold readSequenceDisplayExtension
  safe_steps
  exact safe_read1OrFalse
theorem noninc_display : Go.NonInc BR.size readSequenceDisplayExtension := by
  unfold readSequenceDisplayExtension
  noninc_steps
  exact noninc_read1OrFalse
theorem nohang_scalable : NoHang readSequenceScalableExtension := by
  unfold readSequenceScalableExtension
  exact .bind (.of_safe (safe_extensionID _)) fun _ => .bind (.of_safe (BR.safe_read _)) fun _ =>
    .bind (.of_safe (BR.safe_read _)) fun _ => .panic
theorem noninc_scalable : Go.NonInc BR.size readSequenceScalableExtension := by
  unfold readSequenceScalableExtension; noninc_steps
theorem safe_temporal : Go.Safe readPictureTemporalScalableExtension := by
  unfold readPictureTemporalScalableExtension; safe_steps
theorem noninc_temporal : Go.NonInc BR.size readPictureTemporalScalableExtension := by
  unfold readPictureTemporalScalableExtension; noninc_steps

/-- the user data loop with enough fuel -/
theorem safe_userLoop : ∀ (f : Nat) (s : BR), s.bits.length < f →
    (userDataLoop f s).1 ≠ .panic ∧ (userDataLoop f s).1 ≠ .hang
  | 0, s, h => absurd h (Nat.not_lt_zero _)
  | f + 1, s, h => by
    unfold userDataLoop
    by_cases h1 : s.bits.length < 24
    · rw [Go.bind_err (BR.peek_short h1)]; simp
    · rw [Go.bind_ok (BR.peek_ok (by omega))]
      split
      · simp
      · rw [Go.bind_ok (BR.read_ok (by omega))]
        have := safe_userLoop f (s.adv 8) (by simp only [BR.adv, List.length_drop]; omega)
        rw [Go.bind_apply]
        cases hm : userDataLoop f (s.adv 8) with
        | mk r s' => rw [hm] at this; cases r <;> simp_all
theorem noninc_userLoop : ∀ f, Go.NonInc BR.size (userDataLoop f)
  | 0 => fun s => Nat.le_refl _
  | f + 1 => by
    unfold userDataLoop
    exact .bind (BR.noninc_peek _) fun _ => .ite (.pure _) (.bind (BR.noninc_read _) fun _ =>
      .bind (noninc_userLoop f) fun _ => .pure _)
theorem safe_userDataBytes : Go.Safe userDataBytes := fun s => safe_userLoop _ s (by omega)
theorem noninc_userDataBytes : Go.NonInc BR.size userDataBytes := fun s => noninc_userLoop _ s

/-- the part of `user_data` after its start code -/
def userDataRest : Go BR (List Nat) := userDataBytes >>= fun d => nextStartCode >>= fun _ => pure d
theorem userData_eq : userData = startCode userDataStartCode >>= fun _ => userDataRest := rfl
theorem safe_userDataRest : Go.Safe userDataRest :=
  .bind safe_userDataBytes fun _ => .bind safe_nextStartCode fun _ => .pure _
theorem noninc_userDataRest : Go.NonInc BR.size userDataRest :=
  .bind noninc_userDataBytes fun _ => .bind noninc_nextStartCode fun _ => .pure _
theorem safe_userData : Go.Safe userData := .bind (safe_startCode _) fun _ => safe_userDataRest
theorem noninc_userData : Go.NonInc BR.size userData := .bind (noninc_startCode _) fun _ => noninc_userDataRest

/-! ### the decoder state -/

/-- unread input of a decoder -/
def VS.left (s : VS) : Nat := s.br.size

theorem safe_vlift {α : Type} {m : Go BR α} (h : Go.Safe m) : Go.Safe (VS.lift m) := fun s => h s.br
theorem nohang_vlift {α : Type} {m : Go BR α} (h : NoHang m) : NoHang (VS.lift m) := fun s => h s.br
theorem noninc_vlift {α : Type} {m : Go BR α} (h : Go.NonInc BR.size m) : Go.NonInc VS.left (VS.lift m) :=
  fun s => h s.br

theorem safe_storeHeader {α : Type} {m : Go BR α} {put : VS → Option α → VS} (h : Go.Safe m) :
    Go.Safe (storeHeader m put) := by
  intro s
  have h1 := safe_vlift h s
  unfold storeHeader
  cases hm : VS.lift m s with
  | mk r s' =>
    rw [hm] at h1
    cases r with
    | ok a => exact safe_vlift safe_nextStartCode _
    | err e => simp
    | panic => exact absurd rfl h1.1
    | hang => exact absurd rfl h1.2
theorem noninc_storeHeader {α : Type} {m : Go BR α} {put : VS → Option α → VS} (h : Go.NonInc BR.size m)
    (hp : ∀ s x, (put s x).br = s.br) : Go.NonInc VS.left (storeHeader m put) := by
  intro s
  have h1 := noninc_vlift h s
  unfold storeHeader
  cases hm : VS.lift m s with
  | mk r s' =>
    rw [hm] at h1
    cases r with
    | ok a =>
      refine Nat.le_trans (noninc_vlift noninc_nextStartCode _) ?_
      show (put s' (some a)).br.size ≤ _
      rw [hp]; exact h1
    | err e =>
      show (put s' none).br.size ≤ _
      rw [hp]; exact h1
    | panic => exact h1
    | hang => exact h1

theorem safe_sequenceHeader : Go.Safe sequenceHeader := by
  unfold sequenceHeader
  exact .bind (safe_vlift safe_readSequenceHeader) fun _ => .modify _
theorem noninc_sequenceHeader : Go.NonInc VS.left sequenceHeader := by
  unfold sequenceHeader
  exact .bind (noninc_vlift noninc_readSequenceHeader) fun _ => fun s => Nat.le_refl _

theorem safe_loadMatrix (set : QMatrices → Matrix → QMatrices) : Go.Safe (loadMatrix set) := by
  unfold loadMatrix
  exact .bind (safe_vlift BR.safe_read1) fun _ => .opt (.bind (safe_vlift safe_readMatrix) fun _ => .modify _)
theorem noninc_loadMatrix (set : QMatrices → Matrix → QMatrices) : Go.NonInc VS.left (loadMatrix set) := by
  unfold loadMatrix
  exact .bind (noninc_vlift BR.noninc_read1) fun _ =>
    .opt _ _ (.bind (noninc_vlift noninc_readMatrix) fun _ => fun s => Nat.le_refl _)
theorem safe_quant : Go.Safe quantMatrixExtension := by
  unfold quantMatrixExtension
  exact .bind (.ignoreErr (safe_vlift (safe_extensionID _))) fun _ => .bind (safe_loadMatrix _) fun _ =>
    .bind (safe_loadMatrix _) fun _ => .bind (safe_loadMatrix _) fun _ => .bind (safe_loadMatrix _) fun _ =>
    safe_vlift safe_nextStartCode
theorem noninc_quant : Go.NonInc VS.left quantMatrixExtension := by
  unfold quantMatrixExtension
  exact .bind (.ignoreErr (noninc_vlift (noninc_extensionID _))) fun _ => .bind (noninc_loadMatrix _) fun _ =>
    .bind (noninc_loadMatrix _) fun _ => .bind (noninc_loadMatrix _) fun _ => .bind (noninc_loadMatrix _) fun _ =>
    noninc_vlift noninc_nextStartCode

/-- the `switch` of `extension_data` -/
def extensionBody (i : Nat) : Go VS Unit :=
  if i = 0 then
    VS.lift (BR.peek 4) >>= fun id =>
      if id = sequenceDisplayExtensionID then VS.lift readSequenceDisplayExtension >>= fun _ => pure ()
      else VS.lift readSequenceScalableExtension
  else if i = 2 then
    VS.lift (BR.peek 4) >>= fun id =>
      if id = quantMatrixExtensionID then quantMatrixExtension
      else if id = copyrightExtensionID ∨ id = pictureDisplayExtensionID ∨
          id = pictureSpatialScalableExtensionID then Go.panic
      else VS.lift readPictureTemporalScalableExtension >>= fun _ => pure ()
  else pure ()

theorem extensionDataStep_eq (i : Nat) :
    extensionDataStep i = Go.ignoreErr (VS.lift (BR.skip 32)) >>= fun _ => extensionBody i := rfl

theorem nohang_body (i : Nat) : NoHang (extensionBody i) := by
  unfold extensionBody
  exact .ite (.bind (nohang_vlift (.of_safe (BR.safe_peek _))) fun _ =>
      .ite (.bind (nohang_vlift (.of_safe safe_display)) fun _ => .pure _) (nohang_vlift nohang_scalable))
    (.ite (.bind (nohang_vlift (.of_safe (BR.safe_peek _))) fun _ =>
      .ite (.of_safe safe_quant) (.ite .panic (.bind (nohang_vlift (.of_safe safe_temporal)) fun _ => .pure _)))
      (.pure _))
theorem noninc_body (i : Nat) : Go.NonInc VS.left (extensionBody i) := by
  unfold extensionBody
  exact .ite (.bind (noninc_vlift (BR.noninc_peek _)) fun _ =>
      .ite (.bind (noninc_vlift noninc_display) fun _ => .pure _) (noninc_vlift noninc_scalable))
    (.ite (.bind (noninc_vlift (BR.noninc_peek _)) fun _ =>
      .ite noninc_quant (.ite .panic (.bind (noninc_vlift noninc_temporal) fun _ => .pure _)))
      (.pure _))

/-- a peeked code is followed by at least its own bits -/
theorem vpeek_inv {k v : Nat} {s s' : VS} (h : VS.lift (BR.peek k) s = (.ok v, s')) :
    s' = s ∧ k ≤ s.br.bits.length ∧ v = natOfBits (s.br.bits.take k) := by
  unfold VS.lift at h
  have h1 : (BR.peek k s.br).1 = .ok v := congrArg Prod.fst h
  have h2 : { s with br := (BR.peek k s.br).2 } = s' := congrArg Prod.snd h
  have h3 : BR.peek k s.br = (.ok v, (BR.peek k s.br).2) := by rw [← h1]
  obtain ⟨a, b, c⟩ := BR.peek_inv h3
  rw [a] at h2
  exact ⟨h2.symm, b, c⟩

theorem step_dec (i : Nat) (s : VS) (h : 32 ≤ s.br.bits.length) :
    (extensionDataStep i s).1 ≠ .hang ∧ (extensionDataStep i s).2.left < s.left := by
  have e : Go.ignoreErr (VS.lift (BR.skip 32)) s = (.ok (), { s with br := s.br.adv 32 }) := by
    unfold Go.ignoreErr; rw [lift_ok (BR.skip_ok h)]
  rw [extensionDataStep_eq, Go.bind_ok e]
  refine ⟨nohang_body i _, ?_⟩
  refine Nat.lt_of_le_of_lt (noninc_body i _) ?_
  have := BR.size_adv_lt s.br (k := 32) h
  show (s.br.adv 32).size < s.br.size
  omega

theorem extData_dec (i : Nat) : ∀ (f : Nat) (s : VS), s.left < f →
    (extensionData i f s).1 ≠ .hang ∧ (extensionData i f s).2.left ≤ s.left ∧
    (32 ≤ s.br.bits.length → natOfBits (s.br.bits.take 32) = extensionStartCode →
      (extensionData i f s).1 = .ok () → (extensionData i f s).2.left < s.left)
  | 0, s, h => absurd h (Nat.not_lt_zero _)
  | f + 1, s, h => by
    unfold extensionData
    by_cases h1 : s.br.bits.length < 32
    · have e : VS.lift (BR.peek 32) s = (.err s.br.failErr, { s with br := s.br.failTo }) := by
        unfold VS.lift; rw [BR.peek_short h1]
      rw [Go.bind_err e]
      exact ⟨by simp, BR.size_failTo _, fun h' => absurd h' (by omega)⟩
    · rw [Go.bind_ok (lift_ok (BR.peek_ok (by omega)))]
      split
      · have hd := step_dec i s (by omega)
        rw [Go.bind_apply]
        cases hm : extensionDataStep i s with
        | mk r s' =>
          rw [hm] at hd
          cases r with
          | ok u =>
            have hr := extData_dec i f s' (Nat.lt_of_lt_of_le hd.2 (by omega))
            exact ⟨hr.1, Nat.le_trans hr.2.1 (Nat.le_of_lt hd.2), fun _ _ _ => Nat.lt_of_le_of_lt hr.2.1 hd.2⟩
          | err e => exact ⟨by simp, Nat.le_of_lt hd.2, fun _ _ _ => hd.2⟩
          | panic => exact ⟨by simp, Nat.le_of_lt hd.2, fun _ _ _ => hd.2⟩
          | hang => exact absurd rfl hd.1
      · rename_i hn
        exact ⟨by simp, Nat.le_refl _, fun _ h' => absurd h' hn⟩

theorem userData_dec (s : VS) (h : 32 ≤ s.br.bits.length) (hc : natOfBits (s.br.bits.take 32) = userDataStartCode) :
    (VS.lift userData s).2.left < s.left := by
  have e : startCode userDataStartCode s.br = (.ok (), s.br.adv 32) := by
    have hb : s.br.bits = bitsOf 32 userDataStartCode ++ s.br.bits.drop 32 := by
      rw [← hc, bitsOf_natOfBits' (by rw [List.length_take]; omega), List.take_append_drop]
    have := startCode_bits (r := s.br.bits.drop 32) (pos := s.br.pos) (stop := s.br.stop) (later := s.br.later)
      userDataStartCode (by decide)
    rw [← hb] at this
    exact this
  show (userData s.br).2.size < s.br.size
  rw [userData_eq, Go.bind_ok e]
  have := BR.size_adv_lt s.br (k := 32) h
  exact Nat.lt_of_le_of_lt (noninc_userDataRest _) (by omega)

theorem extUser_term (i : Nat) (hi : i ≠ 1) : ∀ (f : Nat) (s : VS), s.left + 2 ≤ f →
    (extensionAndUserData i f s).1 ≠ .hang ∧ (extensionAndUserData i f s).2.left ≤ s.left
  | 0, s, h => absurd h (by omega)
  | f + 1, s, h => by
    unfold extensionAndUserData
    by_cases h1 : s.br.bits.length < 32
    · have e : VS.lift (BR.peek 32) s = (.err s.br.failErr, { s with br := s.br.failTo }) := by
        unfold VS.lift; rw [BR.peek_short h1]
      rw [Go.bind_err e]
      exact ⟨by simp, BR.size_failTo _⟩
    · rw [Go.bind_ok (lift_ok (BR.peek_ok (by omega)))]
      split
      · rename_i hc
        have hd := extData_dec i f s (by omega)
        rw [Go.bind_apply]
        cases hm : extensionData i f s with
        | mk r s' =>
          rw [hm] at hd
          cases r with
          | ok u =>
            have hlt := hd.2.2 (by omega) hc rfl
            have hr := extUser_term i hi f s' (by simp only at hlt; omega)
            exact ⟨hr.1, Nat.le_trans hr.2 (Nat.le_of_lt hlt)⟩
          | err e => exact ⟨by simp, hd.2.1⟩
          | panic => exact ⟨by simp, hd.2.1⟩
          | hang => exact absurd rfl hd.1
      · split
        · rename_i hc
          have hlt := userData_dec s (by omega) hc
          have hs := safe_vlift safe_userData s
          rw [Go.bind_apply]
          cases hm : VS.lift userData s with
          | mk r s' =>
            rw [hm] at hlt hs
            cases r with
            | ok u =>
              have hr := extUser_term i hi f s' (by simp only at hlt; omega)
              exact ⟨hr.1, Nat.le_trans hr.2 (Nat.le_of_lt hlt)⟩
            | err e => exact ⟨by simp, Nat.le_of_lt hlt⟩
            | panic => exact ⟨by simp, Nat.le_of_lt hlt⟩
            | hang => exact absurd rfl hs.2
        · exact ⟨by simp, Nat.le_refl _⟩

/-- After a group of pictures header the loop makes no progress on an extension start code. -/
theorem extUser_one_spin (f : Nat) (s : VS) (h : 32 ≤ s.br.bits.length)
    (hc : natOfBits (s.br.bits.take 32) = extensionStartCode) : extensionAndUserData 1 f s = (.hang, s) := by
  induction f with
  | zero => rfl
  | succ f ih =>
    unfold extensionAndUserData
    rw [Go.bind_ok (lift_ok (BR.peek_ok h)), if_pos hc, if_neg (by decide)]
    exact ih

end Mpeg.Video
