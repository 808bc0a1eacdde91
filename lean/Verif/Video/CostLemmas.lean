/-
How many bits successful calls consume.
-/
import Verif.Video.MovesLemmas
import Verif.Video.OrderLemmas
import Verif.PS.AcceptProps
set_option linter.all false
namespace Mpeg

/-- Every successful run of `m` consumes at least `n` bits. -/
def Go.Cost {σ α : Type} (gt : σ → BR) (n : Nat) (m : Go σ α) : Prop :=
  ∀ s a t, m s = (.ok a, t) → (gt t).size + n ≤ (gt s).size

namespace Go.Cost
variable {σ α β : Type} {gt : σ → BR} {n k : Nat}
theorem mono {m : Go σ α} (h : Go.Cost gt n m) (hk : k ≤ n) : Go.Cost gt k m := fun s a t e => by
  have := h s a t e; omega
theorem of_mv {m : Go σ α} (h : Go.Mv gt m) : Go.Cost gt 0 m := fun s a t e => by
  have := (h s).size; rw [e] at this; exact this
theorem bind {m : Go σ α} {f : α → Go σ β} (hm : Go.Cost gt n m) (hf : ∀ a, Go.Cost gt k (f a)) :
    Go.Cost gt (n + k) (m >>= f) := by
  intro s b t e
  obtain ⟨a, s1, h1, h2⟩ := Go.bind_eq_ok e
  have := hm s a s1 h1
  have := hf a s1 b t h2
  omega
theorem bind0 {m : Go σ α} {f : α → Go σ β} (hm : Go.Mv gt m) (hf : ∀ a, Go.Cost gt k (f a)) : Go.Cost gt k (m >>= f) :=
  (bind (of_mv hm) hf).mono (by omega)
theorem bindR {m : Go σ α} {f : α → Go σ β} (hm : Go.Cost gt n m) (hf : ∀ a, Go.Mv gt (f a)) : Go.Cost gt n (m >>= f) :=
  (bind hm fun a => of_mv (hf a)).mono (by omega)
theorem pure (a : α) : Go.Cost gt 0 (Pure.pure a : Go σ α) := of_mv (.pure a)
theorem modify {f : σ → σ} (h : ∀ s, gt (f s) = gt s) : Go.Cost gt 0 (Go.modify f) := of_mv (.modify h)
theorem ite {c : Prop} [Decidable c] {m m' : Go σ α} (hm : Go.Cost gt n m) (hm' : Go.Cost gt n m') :
    Go.Cost gt n (if c then m else m') := by split <;> assumption
theorem panic : Go.Cost gt n (Go.panic : Go σ α) := fun s a t e => by cases e
theorem hang : Go.Cost gt n (Go.hang : Go σ α) := fun s a t e => by cases e
theorem throw (x : Err) : Go.Cost gt n (Go.throw x : Go σ α) := fun s a t e => by cases e
end Go.Cost

namespace BR
abbrev Cost {α : Type} (n : Nat) (m : Go BR α) : Prop := Go.Cost (fun s : BR => s) n m
theorem cost_read (k : Nat) : Cost k (read k) := fun s a t e => by
  obtain ⟨l, h1, h2, _⟩ := BR.read_inv e
  have := Video.size_took h1
  show t.size + k ≤ s.size
  omega
theorem cost_skip (k : Nat) : Cost k (skip k) := fun s a t e => by
  obtain ⟨l, h1, h2⟩ := BR.skip_inv e
  have := Video.size_took h1
  show t.size + k ≤ s.size
  omega
theorem cost_read1 : Cost 1 read1 := fun s a t e => by
  have := Video.size_took (BR.read1_inv e)
  show t.size + 1 ≤ s.size
  have h : [a].length = 1 := rfl
  omega
theorem cost_codeAssert (k c : Nat) (x : Err) : Cost k (codeAssert k c x) := fun s a t e => by
  have := Video.size_took (PS.codeAssert_inv e)
  rw [length_bitsOf] at this
  show t.size + k ≤ s.size
  omega
end BR

namespace Video
open _root_.Mpeg.BR

theorem cost_vlift {α : Type} {n : Nat} {m : Go BR α} (h : BR.Cost n m) : Go.Cost VS.br n (VS.lift m) := fun s a t e => by
  have e2 : { s with br := (m s.br).2 } = t := congrArg Prod.snd e
  subst e2
  have e1 : (m s.br).1 = .ok a := congrArg Prod.fst e
  exact h s.br a _ (Prod.ext e1 rfl)
theorem cost_mlift {α : Type} {n : Nat} {m : Go BR α} (h : BR.Cost n m) : Go.Cost MB.br n (MB.lift m) := fun s a t e => by
  have e2 : { s with br := (m s.br).2 } = t := congrArg Prod.snd e
  subst e2
  have e1 : (m s.br).1 = .ok a := congrArg Prod.fst e
  exact h s.br a _ (Prod.ext e1 rfl)

theorem cost_pictureHeader : BR.Cost 62 readPictureHeader := by
  unfold readPictureHeader startCode
  exact (Go.Cost.bind (cost_codeAssert 32 _ _) fun _ => .bind (cost_read 10) fun _ => .bind (cost_read 3) fun _ =>
    .bind (cost_read 16) fun _ => .bind (.of_mv (.opt (mv_read _))) fun _ => .bind (.of_mv (.opt (mv_read _))) fun _ =>
    .bind (.of_mv (.opt (mv_read _))) fun _ => .bind (.of_mv (.opt (mv_read _))) fun _ => .bind (.of_mv mv_readExtra) fun _ =>
    .bind (cost_skip 1) fun _ => .pure _ : BR.Cost _ _).mono (by decide)

theorem cost_pictureCodingExtension : BR.Cost 66 readPictureCodingExtension := by
  unfold readPictureCodingExtension startCode extensionID
  exact (Go.Cost.bind (cost_codeAssert 32 _ _) fun _ => .bind (cost_codeAssert 4 _ _) fun _ =>
    .bind (cost_read 4) fun _ => .bind (cost_read 4) fun _ => .bind (cost_read 4) fun _ => .bind (cost_read 4) fun _ =>
    .bind (cost_read 2) fun _ => .bind (cost_read 2) fun _ => .bind cost_read1 fun _ => .bind (cost_read 1) fun _ =>
    .bind cost_read1 fun _ => .bind (cost_read 1) fun _ => .bind (cost_read 1) fun _ => .bind (cost_read 1) fun _ =>
    .bind cost_read1 fun _ => .bind cost_read1 fun _ => .bind cost_read1 fun _ => .bind cost_read1 fun _ =>
    .of_mv (by mv_steps) : BR.Cost _ _).mono (by decide)

theorem cost_storeHeader {α : Type} {n : Nat} {m : Go BR α} {put : VS → Option α → VS} (h : BR.Cost n m)
    (hp : ∀ s x, (put s x).br = s.br) : Go.Cost VS.br n (storeHeader m put) := by
  intro s a t e
  unfold storeHeader at e
  cases hm : VS.lift m s with
  | mk r s' =>
    rw [hm] at e
    cases r with
    | ok b =>
      have h1 := cost_vlift h s b s' hm
      have h2 := Go.Cost.of_mv (mv_vlift mv_nextStartCode) _ _ _ e
      rw [hp] at h2
      omega
    | err x => cases e
    | panic => cases e
    | hang => cases e

theorem cost_huffLoop {α : Type} : ∀ (f : Nat) (t : Table α), BR.Cost 1 (huffLoop f t)
  | 0, _ => .hang
  | f + 1, t => by
    unfold huffLoop
    refine Go.Cost.bind (n := 1) (k := 0) cost_read1 fun b => ?_
    cases (t.next b).hit with
    | some v => exact .pure _
    | none => exact .ite (.throw _) ((cost_huffLoop f _).mono (by decide))
theorem cost_huffDecode {α : Type} (t : Table α) : BR.Cost 1 (huffDecode t) := cost_huffLoop _ t

theorem cost_mbIncrement : BR.Cost 1 mbIncrement :=
  (Go.Cost.bind (n := 0) (k := 1 + 0) (.of_mv (fun s => mv_escapeLoop _ _ s)) fun _ =>
    .bind (cost_huffDecode _) fun _ => .pure _ : BR.Cost _ _).mono (by decide)

theorem cost_mbType (pct : Nat) : BR.Cost 1 (mbType pct) := by
  unfold mbType
  exact .ite (cost_huffDecode _) (.ite (cost_huffDecode _) (.ite (cost_huffDecode _) .panic))

theorem cost_macroblockMode (e : PicEnv) : BR.Cost 1 (macroblockMode e) := by
  unfold macroblockMode
  exact (Go.Cost.bind (n := 1) (k := 0) (cost_mbType _) fun _ => .of_mv (by mv_steps))

theorem cost_macroblock (e : PicEnv) (row : Nat) (addr : Option Nat) : Go.Cost MB.br 2 (macroblock e row addr) := by
  unfold macroblock
  refine Go.Cost.bind (n := 1) (k := 1) (cost_mlift cost_mbIncrement) fun incr =>
    Go.Cost.bind0 (mv_copySkipped _ _ _ _) fun _ => Go.Cost.bind0 (.modify fun _ => rfl) fun _ => ?_
  exact Go.Cost.bindR (cost_mlift (cost_macroblockMode e)) fun m => .bind (.modify fun _ => rfl) fun _ =>
    .bind (mv_mbVectors _ _) fun _ => mv_mbPattern _ _ _ _

theorem cost_mbLoop (e : PicEnv) (row : Nat) : ∀ f addr, Go.Cost MB.br 2 (mbLoop e row f addr)
  | 0, _ => .hang
  | f + 1, addr => by
    unfold mbLoop
    exact (Go.Cost.bind (n := 2) (k := 0) (cost_macroblock e row addr) fun _ => .of_mv
      (.bind (mv_mlift (mv_peek _)) fun _ => .ite (.pure _) (mv_mbLoop e row f _)))

theorem cost_sliceHeader (v : Nat) : BR.Cost 6 (sliceHeader v) := by
  unfold sliceHeader
  refine (Go.Cost.bind (n := 0) (k := 5 + (0 + (0 + (1 + 0)))) (.of_mv (.opt (mv_read _))) fun _ => .bind (cost_read 5) fun _ =>
    .bind (.of_mv (mv_peek _)) fun _ => .bind (.of_mv (by mv_steps)) fun _ => .bind (cost_skip 1) fun _ => .pure _ : BR.Cost _ _).mono (by decide)

theorem cost_slice (e : PicEnv) : Go.Cost MB.br 40 (slice e) := by
  unfold slice
  refine Go.Cost.bind (n := 32) (k := 8) (cost_mlift (cost_read 32)) fun code => Go.Cost.bind0 .check fun _ =>
    Go.Cost.bind0 .get fun s => Go.Cost.ite .panic ?_
  refine Go.Cost.bind (n := 6) (k := 2) (cost_mlift (cost_sliceHeader _)) fun q => Go.Cost.bind0 (.modify fun _ => rfl) fun _ => ?_
  exact Go.Cost.bindR (fun s => cost_mbLoop e _ _ _ s) fun _ => mv_mlift mv_nextStartCode

theorem cost_sliceLoop (e : PicEnv) : ∀ f, Go.Cost MB.br 40 (sliceLoop e f)
  | 0 => .hang
  | f + 1 => by
    unfold sliceLoop
    exact (Go.Cost.bind (n := 40) (k := 0) (cost_slice e) fun _ => .of_mv
      (.bind (mv_mlift (mv_peek _)) fun _ => .ite (mv_sliceLoop e f) (.pure _)))

theorem cost_pictureData : Go.Cost VS.br 40 pictureData := by
  intro s a t h
  unfold pictureData at h
  split at h
  · rename_i sh se ph pce _ _ _ _
    dsimp only at h
    generalize hm : (⟨s.br, DcPred.reset pce.intraDCPrecision, MVD.init, 0,
      createFrameBuffer s.size.1.toNat s.size.2.toNat se.chromaFormat⟩ : MB) = m at h
    have hbr : m.br = s.br := by rw [← hm]
    split at h
    · rename_i u m' hr
      cases h
      have := (Go.Cost.bind (n := 40) (k := 0) (cost_sliceLoop _ _) fun _ => .of_mv (mv_mlift mv_nextStartCode) :
        Go.Cost MB.br 40 _) m _ m' hr
      rw [hbr] at this
      exact this
    · cases h
    · cases h
    · cases h
  · cases h

theorem mv_toPicture (fuel : Nat) : Go.Mv VS.br (toPicture fuel) := by
  intro s
  unfold toPicture
  split
  · refine (show Go.Mv VS.br (resumeTo fuel) from ?_) s
    unfold resumeTo
    refine .bind (mv_vlift (mv_peek _)) fun v => .ite (.pure _) (.ite ?_ ?_)
    · exact .bind (mv_vlift (mv_skip _)) fun _ => .throw _
    · exact .bind mv_sequenceHeader fun _ => .bind mv_sequenceExtension fun _ => mv_extUser 0 fuel
  · refine (show Go.Mv VS.br (startTo fuel) from ?_) s
    unfold startTo
    exact .bind (mv_vlift mv_nextStartCode) fun _ => .bind mv_sequenceHeader fun _ => .bind (mv_vlift (mv_peek _)) fun _ =>
      .bind .check fun _ => .bind mv_sequenceExtension fun _ => mv_extUser 0 fuel

theorem mv_groupHeader' (fuel : Nat) : Go.Mv VS.br (groupHeader fuel) := by
  unfold groupHeader
  exact .bind (mv_vlift (mv_peek _)) fun _ => .opt (.bind (mv_vlift mv_readGOPHeader) fun _ => .bind (.modify fun _ => rfl) fun _ =>
    mv_extUser 1 fuel)

theorem cost_pictureStep : Go.Cost VS.br 40 pictureStep := by
  intro s a t h
  unfold pictureStep at h
  rw [Go.bind_ok (Go.get_apply _)] at h
  cases hph : s.ph with
  | none => rw [hph] at h; cases h
  | some ph =>
    rw [hph] at h
    dsimp only at h
    obtain ⟨_, s1, h1, h⟩ := Go.bind_eq_ok h
    cases h1
    obtain ⟨f, s2, h2, h⟩ := Go.bind_eq_ok h
    obtain ⟨_, s3, h3, h⟩ := Go.bind_eq_ok h
    have e2 := cost_pictureData _ _ _ h2
    have e3 : s3.br = s2.br := by
      cases h3
      split <;> rfl
    cases h
    rw [e3]
    exact e2

theorem mv_alignToLoop (c : Nat) : ∀ f, BR.Mv (alignToLoop c f)
  | 0 => .hang
  | f + 1 => .bind (mv_peek _) fun _ => .ite (.pure _) (.bind (mv_skip _) fun _ => mv_alignToLoop c f)
theorem mv_alignTo (c : Nat) : BR.Mv (alignTo c) := .bind mv_alignIfNeeded fun _ s => mv_alignToLoop c _ s

/-- A decoded picture costs at least 168 bits. -/
theorem cost_step (fuel : Nat) : Go.Cost VS.br 168 (step fuel) := by
  intro s a t h
  obtain ⟨s1, h1, h2⟩ := step_toPicture h
  have e1 := Go.Cost.of_mv (mv_toPicture fuel) _ _ _ h1
  have e2 := (Go.Cost.bind (.of_mv (mv_groupHeader' fuel)) fun _ => .bind (cost_storeHeader cost_pictureHeader fun _ _ => rfl) fun _ =>
    .bind (cost_storeHeader cost_pictureCodingExtension fun _ _ => rfl) fun _ => .bind (.of_mv (mv_extUser 2 fuel)) fun _ =>
    cost_pictureStep : Go.Cost VS.br _ (moreFrames fuel)).mono (k := 168) (by decide) s1 a t h2
  omega

end Video
end Mpeg
