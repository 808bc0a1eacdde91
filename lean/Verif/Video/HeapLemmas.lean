/-
The decoder with pointers does what the decoder with values does: pictures.
-/
import Verif.Video.HeapModel
import Verif.Video.ShapeLemmas
set_option linter.all false
namespace Mpeg.Video
open Spec

theorem write_same (m : Mem) (a : Nat) (f : Frame) : m.write a f a = f := if_pos rfl
theorem write_other (m : Mem) {a b : Nat} (f : Frame) (h : b ≠ a) : m.write a f b = m b := if_neg h
theorem write_write (m : Mem) (a : Nat) (f g : Frame) : (m.write a f).write a g = m.write a g := by
  funext b; unfold Mem.write; split <;> rfl
theorem write_self (m : Mem) (a : Nat) : m.write a (m a) = m := by
  funext b; unfold Mem.write; split
  · rename_i h; rw [h]
  · rfl

theorem put_get (f : Frame) (c : Chan) : f.put (f.get c) c = f := by cases c <;> rfl
theorem get_put (f : Frame) (p : Plane) (c : Chan) : (f.put p c).get c = p := by cases c <;> rfl
theorem put_put (f : Frame) (p q : Plane) (c : Chan) : (f.put p c).put q c = f.put q c := by cases c <;> rfl

theorem hCopyRows_eq {c : Chan} {cur src dbase dstride sbase sstride x w : Nat} (hs : src ≠ cur) (k : Nat) : ∀ (v : Nat) (m : Mem),
    hCopyRows c cur src dbase dstride sbase sstride x w k v m =
      (copyRows dbase dstride sbase sstride x w ((m src).get c) k v ((m cur).get c)).map
        fun p => m.write cur ((m cur).put p c) := by
  induction k with
  | zero => intro v m; simp only [hCopyRows, copyRows, Option.map_some, put_get, write_self]
  | succ k ih =>
    intro v m
    unfold hCopyRows copyRows
    cases h1 : ((m cur).get c).copyFrom ((m src).get c) (dbase + v * dstride + x) (sbase + v * sstride + x) w with
    | none => rfl
    | some d =>
      dsimp only
      rw [ih, write_same, write_other _ _ hs, get_put]
      simp only [put_put, write_write]

theorem hPframeCopy_eq {row col n cur : Nat} {src : Option Nat} (hs : ∀ p, src = some p → p ≠ cur) (m : Mem) :
    hPframeCopy row col n cur src m = (pframeCopy row col n (m cur) (src.map m)).map (m.write cur) := by
  cases src with
  | none => rfl
  | some s =>
    have hs := hs s rfl
    unfold hPframeCopy pframeCopy
    simp only [Option.map_some, Option.bind_eq_bind, Option.bind_some]
    rw [hCopyRows_eq hs]
    show Option.bind (Option.map _ (copyRows _ _ _ _ _ _ (m s).y 16 0 (m cur).y)) _ = _
    cases copyRows (16 * row * (m cur).yStride) (m cur).yStride (row * 16 * (m s).yStride) (m s).yStride (col * 16) (n * 16) (m s).y 16 0 (m cur).y with
    | none => rfl
    | some py =>
      simp only [Option.map_some, Option.bind_some]
      rw [hCopyRows_eq hs]
      simp only [write_same, write_other _ _ hs]
      show Option.bind (Option.map _ (copyRows _ _ _ _ _ _ (m s).cb 8 0 (m cur).cb)) _ = _
      simp only [Frame.put]
      cases copyRows (8 * row * (m cur).cStride) (m cur).cStride (row * 8 * (m s).cStride) (m s).cStride (col * 8) (n * 8) (m s).cb 8 0 (m cur).cb with
      | none => rfl
      | some pcb =>
        simp only [Option.map_some, Option.bind_some]
        rw [hCopyRows_eq hs]
        simp only [write_same, write_other _ _ hs, write_write]
        show Option.map _ (copyRows _ _ _ _ _ _ (m s).cr 8 0 (m cur).cr) = _
        simp only [Frame.put]
        cases copyRows (8 * row * (m cur).cStride) (m cur).cStride (row * 8 * (m s).cStride) (m s).cStride (col * 8) (n * 8) (m s).cr 8 0 (m cur).cr with
        | none => rfl
        | some pcr => rfl

/-- the references are not the frame being built -/
def Apart (E : HEnv) (cur : Nat) : Prop := (∀ p, E.past = some p → p ≠ cur) ∧ ∀ p, E.future = some p → p ≠ cur

theorem map_write {o : Option Nat} {cur : Nat} (h : ∀ p, o = some p → p ≠ cur) (m : Mem) (f : Frame) :
    o.map (m.write cur f) = o.map m := by
  cases o with
  | none => rfl
  | some p => simp only [Option.map_some, write_other _ _ (h p rfl)]

theorem at_write {E : HEnv} {cur : Nat} (h : Apart E cur) (m : Mem) (f : Frame) : E.at (m.write cur f) = E.at m := by
  unfold HEnv.at
  rw [map_write h.1, map_write h.2]

theorem hBcopyBlocks_eq {E : HEnv} {d : MVD} {addr row cur : Nat} (ha : Apart E cur) (k : Nat) : ∀ m : Mem,
    hBcopyBlocks E d addr row cur k m = (bcopyBlocks (E.at m) d addr row k (m cur)).map (m.write cur) := by
  induction k with
  | zero => intro m; show some m = some _; rw [write_self]
  | succ k ih =>
    intro m
    show Option.bind (hFinishBlock E d Block.zero (5 - k) addr row false cur m) _ = _
    unfold hFinishBlock
    cases h1 : finishBlock (E.at m) d Block.zero (5 - k) addr row false (m cur) with
    | none => rw [bcopyBlocks_none h1]; rfl
    | some f =>
      rw [bcopyBlocks_step h1]
      simp only [Option.map_some, Option.bind_some]
      rw [ih, at_write ha, write_same]
      congr 1
      funext g
      exact write_write ..

theorem hBframeCopy_eq {E : HEnv} {d : MVD} {row cur : Nat} (ha : Apart E cur) (n : Nat) : ∀ (addr : Nat) (m : Mem),
    hBframeCopy E d row cur addr n m = (bframeCopy (E.at m) d row addr n (m cur)).map (m.write cur) := by
  induction n with
  | zero => intro addr m; show some m = some _; rw [write_self]
  | succ n ih =>
    intro addr m
    show Option.bind (hBcopyBlocks E d addr row cur 6 m) _ = _
    rw [hBcopyBlocks_eq ha]
    cases h1 : bcopyBlocks (E.at m) d addr row 6 (m cur) with
    | none => rw [bframeCopy_none h1]; rfl
    | some f =>
      rw [bframeCopy_step h1]
      simp only [Option.map_some, Option.bind_some]
      rw [ih, at_write ha, write_same]
      congr 1
      funext g
      exact write_write ..

/-! ### macroblocks -/

/-- the state with the new values and the frame written back -/
def HMB.back (h : HMB) (s : MB) : HMB := ⟨s.br, s.dcp, s.mvd, s.qsc, h.cur, h.mem.write h.cur s.frame⟩

theorem back_toMB (h : HMB) (s : MB) : (h.back s).toMB = s := by
  unfold HMB.back HMB.toMB; simp only [write_same]
theorem back_back (h : HMB) (s t : MB) : (h.back s).back t = h.back t := by
  unfold HMB.back; simp only [write_write]
theorem back_self (h : HMB) : h.back h.toMB = h := by
  unfold HMB.back HMB.toMB; simp only [write_self]

/-- the state belongs to the environment with values -/
def Sound (E : HEnv) (e : PicEnv) (h : HMB) : Prop := E.at h.mem = e ∧ Apart E h.cur

theorem Sound.back {E : HEnv} {e : PicEnv} {h : HMB} (hg : Sound E e h) (s : MB) : Sound E e (h.back s) :=
  ⟨(at_write hg.2 _ _).trans hg.1, hg.2⟩

/-- the two do the same -/
def SimM (E : HEnv) (e : PicEnv) {α : Type} (x : Go HMB α) (y : Go MB α) : Prop :=
  ∀ h, Sound E e h → x h = ((y h.toMB).1, h.back (y h.toMB).2)

namespace SimM
variable {E : HEnv} {e : PicEnv} {α β : Type}
theorem pure (a : α) : SimM E e (Pure.pure a) (Pure.pure a) := fun h _ => by
  simp only [Go.pure_apply, back_self]
theorem hang : SimM E e (Go.hang : Go HMB α) Go.hang := fun h _ => by
  show (Res.hang, h) = (Res.hang, h.back h.toMB); rw [back_self]
theorem panic : SimM E e (Go.panic : Go HMB α) Go.panic := fun h _ => by
  show (Res.panic, h) = (Res.panic, h.back h.toMB); rw [back_self]
theorem throw (x : Err) : SimM E e (Go.throw x : Go HMB α) (Go.throw x) := fun h _ => by
  show (Res.err x, h) = (Res.err x, h.back h.toMB); rw [back_self]
theorem check (c : Bool) (x : Err) : SimM E e (Go.check c x) (Go.check c x) := by
  cases c
  · exact throw x
  · exact pure ()
theorem bind {x : Go HMB α} {y : Go MB α} {f : α → Go HMB β} {g : α → Go MB β} (h1 : SimM E e x y)
    (h2 : ∀ a, SimM E e (f a) (g a)) : SimM E e (x >>= f) (y >>= g) := by
  intro h hg
  have hx := h1 h hg
  rw [Go.bind_apply, Go.bind_apply, hx]
  cases hy : y h.toMB with
  | mk r s =>
    cases r with
    | ok a =>
      have := h2 a (h.back s) (hg.back s)
      rw [back_toMB, back_back] at this
      exact this
    | err x => rfl
    | panic => rfl
    | hang => rfl
theorem ite {c : Prop} [Decidable c] {x x' : Go HMB α} {y y' : Go MB α} (h1 : SimM E e x y) (h2 : SimM E e x' y') :
    SimM E e (if c then x else x') (if c then y else y') := by split <;> assumption
theorem run {m : PicEnv → Go MB α} (hk : ∀ g, Keeps (OnFrame (· = g)) (m e)) : SimM E e (HMB.run m E) (m e) := by
  intro h hg
  unfold HMB.run HMB.back
  rw [hg.1]
  have hf : (m e h.toMB).2.frame = h.mem h.cur := hk (h.mem h.cur) h.toMB rfl
  rw [hf, write_self]
end SimM

theorem simm_copySkipped {E : HEnv} {e : PicEnv} (row : Nat) (addr : Option Nat) (incr : Nat) :
    SimM E e (hCopySkipped E row addr incr) (copySkipped e row addr incr) := by
  intro h hg
  have he : e = E.at h.mem := hg.1.symm
  have hsame : ∀ r : Res Unit, (r, h) = ((r, h.toMB).1, h.back (r, h.toMB).2) := by intro r; rw [back_self]
  unfold hCopySkipped copySkipped
  cases addr with
  | none => exact hsame _
  | some a =>
    dsimp only
    have hpt : e.ph = E.ph := by rw [he]; rfl
    rw [hpt]
    split
    · split
      · rw [hPframeCopy_eq hg.2.1]
        have hp : e.past = E.past.map h.mem := by rw [he]; rfl
        rw [hp]
        simp only [show h.toMB.frame = h.mem h.cur from rfl]
        cases hx : pframeCopy row (a + 1) (incr - 1) (h.mem h.cur) (E.past.map h.mem) with
        | none => exact hsame _
        | some f => rfl
      · split
        · rw [hBframeCopy_eq hg.2, ← he]
          simp only [show h.toMB.frame = h.mem h.cur from rfl, show h.toMB.mvd = h.mvd from rfl]
          cases hx : bframeCopy e h.mvd row (a + 1) (incr - 1) (h.mem h.cur) with
          | none => exact hsame _
          | some f => rfl
        · exact hsame _
    · exact hsame _

theorem simm_mbBlocks {E : HEnv} {e : PicEnv} (intra il : Bool) (coded : Nat → Bool) (addr row : Nat) : ∀ k i b,
    SimM E e (hMbBlocks E intra il coded addr row k i b) (mbBlocks e intra il coded addr row k i b) := by
  intro k
  induction k with
  | zero => intro i b; exact .pure ()
  | succ k ih =>
    intro i b
    unfold hMbBlocks mbBlocks
    refine .bind (.run fun g => fr_mbBlock _ _ _ _ _) fun b' => ?_
    intro h hg
    rw [Go.bind_ok (Go.get_apply h), Go.bind_ok (Go.get_apply h.toMB)]
    unfold hFinishBlock
    rw [hg.1]
    simp only [show h.toMB.frame = h.mem h.cur from rfl, show h.toMB.mvd = h.mvd from rfl]
    cases hx : finishBlock e h.mvd b' i addr row il (h.mem h.cur) with
    | none =>
      show (Res.panic, h) = (Res.panic, h.back h.toMB)
      rw [back_self]
    | some f =>
      have := ih (i + 1) b' (h.back { h.toMB with frame := f }) (hg.back _)
      rw [back_toMB, back_back] at this
      exact this

theorem simm_mbFinish {E : HEnv} {e : PicEnv} (hse : e.se = E.se) (row a : Nat) (md : Mode) (cbp : Nat) :
    SimM E e (hMbFinish E row a md cbp) (mbFinish e row a md cbp) := by
  unfold hMbFinish mbFinish
  rw [hse]
  exact .bind (simm_mbBlocks _ _ _ _ _ _ _ _) fun _ => .pure _

theorem simm_mbPattern {E : HEnv} {e : PicEnv} (hse : e.se = E.se) (row a : Nat) (md : Mode) :
    SimM E e (hMbPattern E row a md) (mbPattern e row a md) := by
  unfold hMbPattern mbPattern
  refine .ite (fun h hg => ?_) (simm_mbFinish hse _ _ _ _)
  have h1 := SimM.run (E := E) (e := e) (m := fun e => MB.lift (codedBlockPattern e.se.chromaFormat)) (fun g => fr_lift _) h hg
  unfold hMbCoded mbCoded
  rw [h1]
  cases hx : MB.lift (codedBlockPattern e.se.chromaFormat) h.toMB with
  | mk r s =>
    cases r with
    | ok cbp =>
      have := simm_mbFinish hse row a md cbp (h.back s) (hg.back s)
      rw [back_toMB, back_back] at this
      exact this
    | err x => rfl
    | panic => rfl
    | hang => rfl

theorem simm_macroblock {E : HEnv} {e : PicEnv} (hse : e.se = E.se) (row : Nat) (addr : Option Nat) :
    SimM E e (hMacroblock E row addr) (macroblock e row addr) := by
  unfold hMacroblock macroblock
  exact .bind (.run (m := fun _ => MB.lift mbIncrement) fun g => fr_lift _) fun incr => .bind (simm_copySkipped _ _ _) fun _ =>
    .bind (.run (m := fun e => skipResets e incr) fun g => keeps_modify fun _ h => h) fun _ =>
    .bind (.run (m := fun e => MB.lift (macroblockMode e)) fun g => fr_lift _) fun md =>
    .bind (.run (m := fun e => modeResets e md.type) fun g => keeps_modify fun _ h => h) fun _ =>
    .bind (.run (m := fun e => mbVectors e md) fun g => fr_mbVectors _ _) fun _ => simm_mbPattern hse _ _ _

theorem simm_mbLoop {E : HEnv} {e : PicEnv} (hse : e.se = E.se) (row : Nat) : ∀ fuel addr,
    SimM E e (hMbLoop E row fuel addr) (mbLoop e row fuel addr)
  | 0, addr => .hang
  | fuel + 1, addr => .bind (simm_macroblock hse row addr) fun a =>
      .bind (.run (m := fun _ => MB.lift (BR.peek 23)) fun g => fr_lift _) fun v => .ite (.pure _) (simm_mbLoop hse row fuel _)

theorem simm_slice {E : HEnv} {e : PicEnv} (hse : e.se = E.se) (hsh : e.sh = E.sh) (hpce : e.pce = E.pce) :
    SimM E e (hSlice E) (slice e) := by
  unfold hSlice slice
  refine .bind (.run (m := fun _ => MB.lift (BR.read 32)) fun g => fr_lift _) fun code => .bind (.check _ _) fun _ => ?_
  dsimp only
  intro h hg
  rw [Go.bind_ok (Go.get_apply h), Go.bind_ok (Go.get_apply h.toMB)]
  revert h
  suffices H : ∀ (h0 : HMB), SimM E e
      (if (h0.mem h0.cur).y.len < 16 * (code % 256 - 1) * (h0.mem h0.cur).yStride ∨ (h0.mem h0.cur).cb.len < 8 * (code % 256 - 1) * (h0.mem h0.cur).cStride ∨
      (h0.mem h0.cur).cr.len < 8 * (code % 256 - 1) * (h0.mem h0.cur).cStride then Go.panic
      else do
        let qsc ← HMB.run (fun e => MB.lift (sliceHeader e.sh.verticalSizeValue)) E
        Go.modify fun h => { h with dcp := DcPred.reset E.pce.intraDCPrecision, mvd := MVD.init, qsc := qsc }
        hMbLoopAll E (code % 256 - 1)
        HMB.run (fun _ => MB.lift nextStartCode) E)
      (if h0.toMB.frame.y.len < 16 * (code % 256 - 1) * h0.toMB.frame.yStride ∨ h0.toMB.frame.cb.len < 8 * (code % 256 - 1) * h0.toMB.frame.cStride ∨
      h0.toMB.frame.cr.len < 8 * (code % 256 - 1) * h0.toMB.frame.cStride then Go.panic
      else do
        let qsc ← MB.lift (sliceHeader e.sh.verticalSizeValue)
        Go.modify fun s => { s with dcp := DcPred.reset e.pce.intraDCPrecision, mvd := MVD.init, qsc := qsc }
        mbLoopAll e (code % 256 - 1)
        MB.lift nextStartCode) by
    intro h hg; exact H h h hg
  intro h0
  refine .ite .panic (.bind (.run (m := fun e => MB.lift (sliceHeader e.sh.verticalSizeValue)) fun g => fr_lift _) fun q => ?_)
  refine .bind ?_ fun _ => .bind ?_ fun _ => .run (m := fun _ => MB.lift nextStartCode) fun g => fr_lift _
  · intro h hg
    rw [hpce]
    unfold HMB.back
    rw [Go.modify_apply, Go.modify_apply]
    simp only [HMB.toMB, write_self]
  · intro h hg
    exact simm_mbLoop hse _ (fuelOf h.br) none h hg

theorem simm_sliceLoop {E : HEnv} {e : PicEnv} (hse : e.se = E.se) (hsh : e.sh = E.sh) (hpce : e.pce = E.pce) : ∀ fuel,
    SimM E e (hSliceLoop E fuel) (sliceLoop e fuel)
  | 0 => .hang
  | fuel + 1 => .bind (simm_slice hse hsh hpce) fun _ => .bind (.run (m := fun _ => MB.lift (BR.peek 32)) fun g => fr_lift _) fun v =>
      .ite (simm_sliceLoop hse hsh hpce fuel) (.pure _)

end Mpeg.Video
