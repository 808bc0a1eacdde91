/-
How many samples a macroblock gives a value to, in terms of its bits.
-/
import Verif.Video.CostLemmas
import Verif.Video.FillSpec
import Verif.Video.MbLemmas
import Verif.Video.ShapeLemmas
set_option linter.all false
namespace Mpeg.Video
open Spec
open _root_.Mpeg.BR

/-! ### planes -/

theorem countP_add (p q : Nat → Bool) (l : List Nat) : l.countP (fun i => p i || q i) ≤ l.countP p + l.countP q := by
  induction l with
  | nil => exact Nat.le_refl _
  | cons a l ih =>
    simp only [List.countP_cons]
    cases p a <;> cases q a <;> simp <;> omega

theorem countP_window (off n : Nat) : ∀ L, (List.range L).countP (fun i => decide (off ≤ i ∧ i < off + n)) ≤ min n (L - off)
  | 0 => by simp
  | L + 1 => by
    have := countP_window off n L
    rw [List.range_succ, List.countP_append, List.countP_singleton]
    split
    · rename_i h
      have h := of_decide_eq_true h
      omega
    · omega

theorem countP_le_of {p q : Nat → Bool} (h : ∀ i, p i = true → q i = true) (l : List Nat) : l.countP p ≤ l.countP q :=
  List.countP_mono_left fun i _ => h i

theorem fill_write {p q : Plane} {off n : Nat} {src : Nat → Nat} (h : p.write off n src = some q) :
    Plane.nonzero q ≤ Plane.nonzero p + n := by
  unfold Plane.write at h
  split at h
  · cases h
    unfold Plane.nonzero
    dsimp only
    have h1 := countP_le_of (p := fun i => (if off ≤ i ∧ i < off + n then src (i - off) else p.data i) != 0)
      (q := fun i => (p.data i != 0) || decide (off ≤ i ∧ i < off + n)) (fun i hi => by
        by_cases hc : off ≤ i ∧ i < off + n
        · simp [hc]
        · rw [if_neg hc] at hi
          simp only [Bool.or_eq_true]
          exact .inl hi) (List.range p.len)
    have h2 := countP_add (fun i => p.data i != 0) (fun i => decide (off ≤ i ∧ i < off + n)) (List.range p.len)
    have h3 := countP_window off n p.len
    omega
  · cases h

theorem fill_writeRows {base stride : Nat} {cb : Nat → Nat} : ∀ (k y : Nat) {p q : Plane},
    writeRows base stride cb k y p = some q → Plane.nonzero q ≤ Plane.nonzero p + 8 * k
  | 0, y, p, q, h => by cases h; exact Nat.le_refl _
  | k + 1, y, p, q, h => by
    unfold writeRows at h
    split at h
    · cases h
    · rename_i h1
      have := fill_write h1
      have := fill_writeRows k _ h
      omega

theorem fill_copyRows {dbase dstride sbase sstride x w : Nat} {s : Plane} : ∀ (k v : Nat) {p q : Plane},
    copyRows dbase dstride sbase sstride x w s k v p = some q → Plane.nonzero q ≤ Plane.nonzero p + w * k
  | 0, v, p, q, h => by cases h; exact Nat.le_refl _
  | k + 1, v, p, q, h => by
    unfold copyRows at h
    split at h
    · cases h
    · rename_i h1
      unfold Plane.copyFrom at h1
      split at h1
      · have h2 := fill_write h1
        have h3 := fill_copyRows k _ h
        rw [Nat.mul_succ]
        omega
      · cases h1

theorem fill_updateFrame {f f' : Frame} {i addr row : Nat} {il : Bool} {cb : Nat → Nat}
    (h : updateFrame i addr row il f cb = some f') : nonzero f' ≤ nonzero f + 64 := by
  unfold updateFrame at h
  unfold nonzero
  split at h
  · dsimp only at h
    rw [Option.map_eq_some_iff] at h
    obtain ⟨p, hp, rfl⟩ := h
    have := fill_writeRows _ _ hp
    dsimp only
    omega
  · split at h
    · rw [Option.map_eq_some_iff] at h
      obtain ⟨p, hp, rfl⟩ := h
      have := fill_writeRows _ _ hp
      dsimp only
      omega
    · split at h
      · rw [Option.map_eq_some_iff] at h
        obtain ⟨p, hp, rfl⟩ := h
        have := fill_writeRows _ _ hp
        dsimp only
        omega
      · cases h

theorem fill_pframeCopy {f f' : Frame} {row col n : Nat} {src : Option Frame} (h : pframeCopy row col n f src = some f') :
    nonzero f' ≤ nonzero f + 384 * n := by
  unfold pframeCopy at h
  cases src with
  | none => cases h
  | some s =>
    dsimp only at h
    split at h
    · rename_i y cb cr e1 e2 e3
      cases h
      have := fill_copyRows _ _ e1
      have := fill_copyRows _ _ e2
      have := fill_copyRows _ _ e3
      unfold nonzero
      dsimp only
      omega
    · cases h

theorem fill_finishBlock {f f' : Frame} {e : PicEnv} {d : MVD} {b : Block} {i addr row : Nat} {il : Bool}
    (h : finishBlock e d b i addr row il f = some f') : nonzero f' ≤ nonzero f + 64 := by
  unfold finishBlock at h
  split at h
  · cases h
  · exact fill_updateFrame h

theorem fill_bcopyBlocks {e : PicEnv} {d : MVD} {addr row : Nat} (k : Nat) : ∀ {f f' : Frame},
    bcopyBlocks e d addr row k f = some f' → nonzero f' ≤ nonzero f + 64 * k := by
  induction k with
  | zero => intro f f' h; have h : some f = some f' := h; rw [← Option.some.inj h]; exact Nat.le_refl _
  | succ k ih =>
    intro f f' h
    cases h1 : finishBlock e d Block.zero (5 - k) addr row false f with
    | none => rw [bcopyBlocks_none h1] at h; exact absurd h.symm (Option.some_ne_none _)
    | some f1 =>
      rw [bcopyBlocks_step h1] at h
      have := ih h
      have := fill_finishBlock h1
      omega

theorem fill_bframeCopy {e : PicEnv} {d : MVD} {row : Nat} (n : Nat) : ∀ (addr : Nat) {f f' : Frame},
    bframeCopy e d row addr n f = some f' → nonzero f' ≤ nonzero f + 384 * n := by
  induction n with
  | zero => intro addr f f' h; have h : some f = some f' := h; rw [← Option.some.inj h]; exact Nat.le_refl _
  | succ n ih =>
    intro addr f f' h
    cases h1 : bcopyBlocks e d addr row 6 f with
    | none => rw [bframeCopy_none h1] at h; exact absurd h.symm (Option.some_ne_none _)
    | some f1 =>
      rw [bframeCopy_step h1] at h
      have := ih _ h
      have := fill_bcopyBlocks _ h1
      omega

/-! ### macroblocks -/

/-- Successful runs of `m` give a value to at most `n` samples. -/
def Fill {α : Type} (n : Nat) (m : Go MB α) : Prop := ∀ s a t, m s = (.ok a, t) → nonzero t.frame ≤ nonzero s.frame + n

namespace Fill
variable {α β : Type} {n k : Nat}
theorem bind {m : Go MB α} {f : α → Go MB β} (hm : Fill n m) (hf : ∀ a, Fill k (f a)) : Fill (n + k) (m >>= f) := by
  intro s b t e
  obtain ⟨a, s1, h1, h2⟩ := Go.bind_eq_ok e
  have := hm s a s1 h1
  have := hf a s1 b t h2
  omega
theorem bind0 {m : Go MB α} {f : α → Go MB β} (hm : Fill 0 m) (hf : ∀ a, Fill k (f a)) : Fill k (m >>= f) := by
  intro s b t e
  have := bind hm hf s b t e
  omega
theorem mono {m : Go MB α} (h : Fill n m) (hk : n ≤ k) : Fill k m := fun s a t e => by
  have := h s a t e; omega
theorem pure (a : α) : Fill 0 (Pure.pure a : Go MB α) := fun s b t e => by cases e; exact Nat.le_refl _
theorem panic : Fill n (Go.panic : Go MB α) := fun s a t e => by cases e
theorem hang : Fill n (Go.hang : Go MB α) := fun s a t e => by cases e
theorem get : Fill 0 (Go.get : Go MB MB) := fun s b t e => by cases e; exact Nat.le_refl _
theorem lift (m : Go BR α) : Fill 0 (MB.lift m) := fun s a t e => by
  have e2 : { s with br := (m s.br).2 } = t := congrArg Prod.snd e
  subst e2
  exact Nat.le_refl _
theorem modify {f : MB → MB} (h : ∀ s, (f s).frame = s.frame) : Fill 0 (Go.modify f) := fun s a t e => by
  cases e
  rw [h]; exact Nat.le_refl _
theorem opt {c : Bool} {d : α} {m : Go MB α} (h : Fill 0 m) : Fill 0 (Go.opt c d m) := by
  cases c
  · exact .pure _
  · exact h
theorem ite {c : Prop} [Decidable c] {m m' : Go MB α} (hm : Fill n m) (hm' : Fill n m') : Fill n (if c then m else m') := by
  split <;> assumption
theorem check {c : Bool} {e : Err} : Fill 0 (Go.check c e : Go MB Unit) := by
  cases c
  · exact fun s a t e => by cases e
  · exact .pure _
theorem orPanic (x : Option α) : Fill 0 (Video.orPanic x : Go MB α) := by
  cases x
  · exact .panic
  · exact .pure _
end Fill

theorem fill_motionVectorPart (e : PicEnv) (info : MvInfo) (r s t : Nat) : Fill 0 (motionVectorPart e info r s t) :=
  .bind (n := 0) (k := 0) (.lift _) fun _ => .ite .panic (.modify fun _ => rfl)
theorem fill_motionVector (e : PicEnv) (info : MvInfo) (r s : Nat) : Fill 0 (motionVector e info r s) :=
  .bind (n := 0) (k := 0) (fill_motionVectorPart _ _ _ _ _) fun _ => fill_motionVectorPart _ _ _ _ _
theorem fill_motionVectors (e : PicEnv) (s : Nat) (m : Mode) : Fill 0 (motionVectors e s m) := by
  unfold motionVectors
  refine .bind (n := 0) (k := 0) (.orPanic _) fun info => .ite ?_ ?_
  · exact .bind (n := 0) (k := 0) (.opt (.lift _)) fun _ => fill_motionVector _ _ _ _
  · exact .bind (n := 0) (k := 0) (.lift _) fun _ => .bind (n := 0) (k := 0) (fill_motionVector _ _ _ _) fun _ =>
      .bind (n := 0) (k := 0) (.lift _) fun _ => fill_motionVector _ _ _ _
theorem fill_mbVectors (e : PicEnv) (m : Mode) : Fill 0 (mbVectors e m) := by
  unfold mbVectors
  exact .bind (n := 0) (k := 0) (.opt (.bind (n := 0) (k := 0) (.lift _) fun _ => .modify fun _ => rfl)) fun _ =>
    .bind (n := 0) (k := 0) (.opt (fill_motionVectors _ _ _)) fun _ => .bind (n := 0) (k := 0) (.opt (fill_motionVectors _ _ _)) fun _ =>
    .bind (n := 0) (k := 0) (.modify fun _ => rfl) fun _ => .opt (.lift _)

theorem fill_copySkipped (e : PicEnv) (row : Nat) (addr : Option Nat) (incr : Nat) :
    Fill (384 * (incr - 1)) (copySkipped e row addr incr) := by
  intro s a t h
  unfold copySkipped at h
  cases addr with
  | none => cases h; exact Nat.le_add_right _ _
  | some b =>
    dsimp only at h
    split at h
    · split at h
      · cases hp : pframeCopy row (b + 1) (incr - 1) s.frame e.past with
        | none => rw [hp] at h; cases h
        | some f => rw [hp] at h; cases h; exact fill_pframeCopy hp
      · split at h
        · cases hp : bframeCopy e s.mvd row (b + 1) (incr - 1) s.frame with
          | none => rw [hp] at h; cases h
          | some f => rw [hp] at h; cases h; exact fill_bframeCopy _ _ hp
        · cases h; exact Nat.le_add_right _ _
    · cases h; exact Nat.le_add_right _ _

theorem fill_mbBlock (e : PicEnv) (intra coded : Bool) (i : Nat) (b : Block) : Fill 0 (mbBlock e intra coded i b) := by
  intro s a t h
  unfold mbBlock at h
  cases coded with
  | false => cases h; exact Nat.le_refl _
  | true =>
    rw [if_pos rfl] at h
    cases hr : readBlock b s.dcp e.pce.intraVLCFormat (colorChannel i) intra s.br with
    | mk r s' =>
      rw [hr] at h
      cases r <;> cases h
      exact Nat.le_refl _

theorem fill_mbBlocks (e : PicEnv) (intra dct : Bool) (coded : Nat → Bool) (addr row : Nat) :
    ∀ k i b, Fill (64 * k) (mbBlocks e intra dct coded addr row k i b)
  | 0, _, _ => .pure _
  | k + 1, i, b => by
    intro s a t h
    unfold mbBlocks at h
    obtain ⟨b', s1, h1, h⟩ := Go.bind_eq_ok h
    have e1 := fill_mbBlock _ _ _ _ _ _ _ _ h1
    rw [Go.bind_ok (Go.get_apply _)] at h
    cases hf : finishBlock e s1.mvd b' i addr row dct s1.frame with
    | none => rw [hf] at h; cases h
    | some f =>
      have e2 := fill_finishBlock hf
      rw [hf] at h
      obtain ⟨_, s2, h2, h⟩ := Go.bind_eq_ok h
      cases h2
      obtain ⟨_, s3, h3, h⟩ := Go.bind_eq_ok h
      cases h3
      have e3 : _ ≤ nonzero f + 64 * k := fill_mbBlocks e intra dct coded addr row k (i + 1) b' _ _ _ h
      omega

theorem fill_mbFinish (e : PicEnv) (row a : Nat) (m : Mode) (cbp : Nat) : Fill 768 (mbFinish e row a m cbp) := by
  unfold mbFinish
  refine (Fill.bind (fill_mbBlocks _ _ _ _ _ _ _ _ _) fun _ => .pure _ : Fill _ _).mono ?_
  unfold blockCount
  split
  · omega
  · split
    · omega
    · split <;> omega

theorem fill_mbPattern (e : PicEnv) (row a : Nat) (m : Mode) : Fill 768 (mbPattern e row a m) := by
  unfold mbPattern
  refine .ite (fun s b t h => ?_) (fill_mbFinish _ _ _ _ _)
  unfold mbCoded at h
  cases hr : MB.lift (codedBlockPattern e.se.chromaFormat) s with
  | mk r s' =>
    have hs : s'.frame = s.frame := by
      have e2 : ∀ m : Go BR Nat, (MB.lift m s).2.frame = s.frame := fun m => rfl
      have e3 := e2 (codedBlockPattern e.se.chromaFormat)
      rw [hr] at e3
      exact e3
    rw [hr] at h
    cases r with
    | ok c => have := fill_mbFinish e row a m c _ _ _ h; rw [hs] at this; exact this
    | err x => cases h; rw [hs]; exact Nat.le_add_right _ _
    | panic => cases h
    | hang => cases h

theorem fill_mbRest (e : PicEnv) (row : Nat) (addr : Option Nat) (incr : Nat) :
    Fill (384 * (incr - 1) + 768) (mbRest e row addr incr) := by
  unfold mbRest
  exact .bind (fill_copySkipped e row addr incr) fun _ => .bind0 (.modify fun _ => rfl) fun _ =>
    .bind0 (.lift _) fun m => .bind0 (.modify fun _ => rfl) fun _ => .bind0 (fill_mbVectors _ _) fun _ => fill_mbPattern _ _ _ _

/-- An address increment is at most three times the number of its bits. -/
theorem incr_bits {s t : BR} {v : Nat} (h : mbIncrement s = (.ok v, t)) : v + 3 * t.size ≤ 3 * s.size := by
  have esc : ∀ f n s t v, escapeLoop f n s = (.ok v, t) → v + 3 * t.size ≤ n + 3 * s.size := by
    intro f
    induction f with
    | zero => intro n s t v h; cases h
    | succ f ih =>
      intro n s t v h
      unfold escapeLoop at h
      obtain ⟨p, s1, h1, h0⟩ := Go.bind_eq_ok h
      clear h
      obtain ⟨rfl, h2, _⟩ := BR.peek_inv h1
      replace h := h0
      split at h
      · obtain ⟨_, s2, h3, h⟩ := Go.bind_eq_ok h
        have hsk : BR.skip 11 s1 = (.ok (), s1.adv 11) := by
          unfold BR.skip
          rw [if_pos h2]
        have : s2 = s1.adv 11 := by
          unfold Go.ignoreErr at h3
          rw [hsk] at h3
          exact (congrArg Prod.snd h3).symm
        subst this
        have := ih _ _ _ _ h
        have := size_adv_lt s1 h2
        omega
      · cases h
        exact Nat.le_refl _
  unfold mbIncrement at h
  obtain ⟨n, s1, h1, h⟩ := Go.bind_eq_ok h
  obtain ⟨w, s2, h2, h⟩ := Go.bind_eq_ok h
  cases h
  have e1 := esc _ _ _ _ _ h1
  obtain ⟨c, hc, ht⟩ := huffDecode_inv (PrefixFree.ne_nil pf_addr) addr_ne_nil h2
  have e2 := size_took ht
  have e3 : ∀ p ∈ addrTable, p.2 ≤ 3 * p.1.length := by decide +kernel
  have := e3 _ hc
  dsimp only at this
  omega

/-- what a state is worth: the samples that have a value, and 1152 for each bit -/
def stock (s : MB) : Nat := nonzero s.frame + 1152 * s.br.size

theorem stock_macroblock {e : PicEnv} {row : Nat} {addr : Option Nat} {s t : MB} {a : Nat}
    (h : macroblock e row addr s = (.ok a, t)) : stock t ≤ stock s := by
  rw [macroblock_eq] at h
  obtain ⟨v, s1, h1, h⟩ := Go.bind_eq_ok h
  have e2 : { s with br := (mbIncrement s.br).2 } = s1 := congrArg Prod.snd h1
  have e1 : (mbIncrement s.br).1 = .ok v := congrArg Prod.fst h1
  have i1 := incr_bits (Prod.ext e1 rfl : mbIncrement s.br = (.ok v, (mbIncrement s.br).2))
  have i2 := fill_mbRest e row addr v s1 a t h
  have i3 : Go.Cost MB.br 1 (mbRest e row addr v) := by
    unfold mbRest
    refine Go.Cost.bind0 (mv_copySkipped _ _ _ _) fun _ => Go.Cost.bind0 (.modify fun _ => rfl) fun _ => ?_
    exact Go.Cost.bindR (cost_mlift (cost_macroblockMode e)) fun m => .bind (.modify fun _ => rfl) fun _ =>
      .bind (mv_mbVectors _ _) fun _ => mv_mbPattern _ _ _ _
  have i4 := i3 s1 a t h
  have i5 := cost_mlift cost_mbIncrement s v s1 h1
  subst e2
  unfold stock
  dsimp only at i1 i2 i4 i5
  omega

theorem stock_mbLoop {e : PicEnv} {row : Nat} : ∀ (f : Nat) {addr : Option Nat} {s t : MB} {u : Unit},
    mbLoop e row f addr s = (.ok u, t) → stock t ≤ stock s
  | 0, _, s, t, u, h => by cases h
  | f + 1, addr, s, t, u, h => by
    unfold mbLoop at h
    obtain ⟨a, s1, h1, h⟩ := Go.bind_eq_ok h
    obtain ⟨v, s2, h2, h⟩ := Go.bind_eq_ok h
    have e1 := stock_macroblock h1
    have e2 : stock s2 ≤ stock s1 := by
      have a1 := Fill.lift _ _ _ _ h2
      have a2 := Go.Cost.of_mv (mv_mlift (mv_peek 23)) _ _ _ h2
      unfold stock
      omega
    split at h
    · cases h; omega
    · have := stock_mbLoop f h
      omega

theorem stock_of {α : Type} {m : Go MB α} (hf : Fill 0 m) (hm : Go.Mv MB.br m) {s t : MB} {a : α} (h : m s = (.ok a, t)) :
    stock t ≤ stock s := by
  have a1 := hf _ _ _ h
  have a2 := Go.Cost.of_mv hm _ _ _ h
  unfold stock
  omega

theorem stock_slice {e : PicEnv} {s t : MB} {u : Unit} (h : slice e s = (.ok u, t)) : stock t ≤ stock s := by
  unfold slice at h
  obtain ⟨code, s1, h1, h⟩ := Go.bind_eq_ok h
  have e1 := stock_of (.lift _) (mv_mlift (mv_read _)) h1
  obtain ⟨_, s2, h2, h⟩ := Go.bind_eq_ok h
  have e2 := stock_of .check .check h2
  rw [Go.bind_ok (Go.get_apply _)] at h
  split at h
  · cases h
  · obtain ⟨q, s3, h3, h⟩ := Go.bind_eq_ok h
    have e3 := stock_of (.lift _) (mv_mlift (mv_sliceHeader _)) h3
    obtain ⟨_, s4, h4, h⟩ := Go.bind_eq_ok h
    cases h4
    obtain ⟨_, s5, h5, h⟩ := Go.bind_eq_ok h
    have e5 : stock s5 ≤ stock s3 := by
      unfold mbLoopAll at h5
      have := stock_mbLoop _ h5
      exact this
    have e6 := stock_of (.lift _) (mv_mlift mv_nextStartCode) h
    omega

theorem stock_sliceLoop {e : PicEnv} : ∀ (f : Nat) {s t : MB} {u : Unit}, sliceLoop e f s = (.ok u, t) → stock t ≤ stock s
  | 0, s, t, u, h => by cases h
  | f + 1, s, t, u, h => by
    unfold sliceLoop at h
    obtain ⟨_, s1, h1, h⟩ := Go.bind_eq_ok h
    have e1 := stock_slice h1
    obtain ⟨v, s2, h2, h⟩ := Go.bind_eq_ok h
    have e2 := stock_of (.lift _) (mv_mlift (mv_peek _)) h2
    split at h
    · have := stock_sliceLoop f h
      omega
    · cases h; omega

theorem nonzero_buffer (w h cf : Nat) : nonzero (createFrameBuffer w h cf) = 0 := by
  unfold createFrameBuffer nonzero Plane.nonzero
  simp [List.countP_eq_zero, Plane.zero]

theorem stock_pictureData {s t : VS} {f : Frame} (h : pictureData s = (.ok f, t)) :
    nonzero f + 1152 * t.br.size ≤ 1152 * s.br.size := by
  unfold pictureData at h
  split at h
  · rename_i sh se ph pce _ _ _ _
    dsimp only at h
    split at h
    · rename_i u m' hr
      cases h
      obtain ⟨_, m1, h1, h2⟩ := Go.bind_eq_ok hr
      have e1 := stock_sliceLoop _ h1
      have e2 := stock_of (.lift _) (mv_mlift mv_nextStartCode) h2
      have := nonzero_buffer s.size.1.toNat s.size.2.toNat se.chromaFormat
      unfold stock at e1 e2
      dsimp only at e1 e2 ⊢
      omega
    · cases h
    · cases h
    · cases h
  · cases h

/-- A decoded picture has at most 1152 samples that are not 0 for each of its bits. -/
theorem stock_step {fuel : Nat} {s t : VS} {f : Frame} (h : step fuel s = (.ok f, t)) :
    nonzero f + 1152 * t.br.size ≤ 1152 * s.br.size := by
  obtain ⟨s1, h1, h⟩ := step_toPicture h
  have e1 := Go.Cost.of_mv (mv_toPicture fuel) _ _ _ h1
  unfold moreFrames at h
  obtain ⟨u, t1, g1, h⟩ := Go.bind_eq_ok h
  obtain ⟨u, t2, g2, h⟩ := Go.bind_eq_ok h
  obtain ⟨u, t3, g3, h⟩ := Go.bind_eq_ok h
  obtain ⟨u, t4, g4, h⟩ := Go.bind_eq_ok h
  have f1 := Go.Cost.of_mv (mv_groupHeader' fuel) _ _ _ g1
  have f2 := Go.Cost.of_mv mv_pictureHeader _ _ _ g2
  have f3 := Go.Cost.of_mv mv_pictureCodingExtension _ _ _ g3
  have f4 := Go.Cost.of_mv (mv_extUser 2 fuel) _ _ _ g4
  unfold pictureStep at h
  rw [Go.bind_ok (Go.get_apply _)] at h
  cases hph : t4.ph with
  | none => rw [hph] at h; cases h
  | some ph =>
    rw [hph] at h
    dsimp only at h
    obtain ⟨_, t5, g5, h⟩ := Go.bind_eq_ok h
    cases g5
    obtain ⟨f', t6, g6, h⟩ := Go.bind_eq_ok h
    obtain ⟨_, t7, g7, h⟩ := Go.bind_eq_ok h
    have e6 := stock_pictureData g6
    have e7 : t7.br = t6.br := by
      cases g7
      split <;> rfl
    cases h
    rw [e7]
    dsimp only at e6
    omega

end Mpeg.Video
