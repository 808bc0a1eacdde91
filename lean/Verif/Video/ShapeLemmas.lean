/-
The planes keep their sizes and their samples stay bytes; what a macroblock does in other chroma formats.
-/
import Verif.Video.ShapeSpec
import Verif.Video.CausLemmas3
import Verif.Video.RefLemmas2
set_option linter.all false
namespace Mpeg.Video
open Spec

/-- the same size, and bytes if the first is made of bytes -/
def Plane.Fit (p q : Plane) : Prop := q.len = p.len ∧ ((∀ i, p.data i ≤ 255) → ∀ i, q.data i ≤ 255)

theorem Plane.Fit.refl (p : Plane) : p.Fit p := ⟨rfl, fun h => h⟩
theorem Plane.Fit.trans {p q r : Plane} (h : p.Fit q) (g : q.Fit r) : p.Fit r := ⟨g.1.trans h.1, fun x => g.2 (h.2 x)⟩

theorem write_fit {p q : Plane} {off n : Nat} {src : Nat → Nat} (hs : ∀ i, src i ≤ 255) (h : p.write off n src = some q) :
    p.Fit q := by
  unfold Plane.write at h
  split at h
  · cases h
    refine ⟨rfl, fun hp i => ?_⟩
    show (if _ then _ else _) ≤ 255
    split
    · exact hs _
    · exact hp _
  · cases h

theorem writeRows_fit {base stride : Nat} {cb : Nat → Nat} (hs : ∀ i, cb i ≤ 255) : ∀ (k y : Nat) {p q : Plane},
    writeRows base stride cb k y p = some q → p.Fit q
  | 0, y, p, q, h => by cases h; exact .refl _
  | k + 1, y, p, q, h => by
    unfold writeRows at h
    split at h
    · cases h
    · rename_i h1
      exact (write_fit (fun i => hs _) h1).trans (writeRows_fit hs k _ h)

theorem copyRows_fit {dbase dstride sbase sstride x w : Nat} {s : Plane} (hs : ∀ i, s.data i ≤ 255) :
    ∀ (k v : Nat) {p q : Plane}, copyRows dbase dstride sbase sstride x w s k v p = some q → p.Fit q
  | 0, v, p, q, h => by cases h; exact .refl _
  | k + 1, v, p, q, h => by
    unfold copyRows at h
    split at h
    · cases h
    · rename_i h1
      unfold Plane.copyFrom at h1
      split at h1
      · exact (write_fit (fun i => hs _) h1).trans (copyRows_fit hs k _ h)
      · cases h1

/-- every sample is a byte -/
def Frame.Bytes (f : Frame) : Prop := (∀ i, f.y.data i ≤ 255) ∧ (∀ i, f.cb.data i ≤ 255) ∧ ∀ i, f.cr.data i ≤ 255

/-- the same sizes and strides, and bytes -/
def Frame.Fits (g f : Frame) : Prop :=
  f.yStride = g.yStride ∧ f.cStride = g.cStride ∧ f.y.len = g.y.len ∧ f.cb.len = g.cb.len ∧ f.cr.len = g.cr.len ∧ f.Bytes

theorem updateFrame_fits {g f f' : Frame} {i addr row : Nat} {il : Bool} {cb : Nat → Nat} (hs : ∀ i, cb i ≤ 255)
    (hf : g.Fits f) (h : updateFrame i addr row il f cb = some f') : g.Fits f' := by
  obtain ⟨h1, h2, h3, h4, h5, h6, h7, h8⟩ := hf
  unfold updateFrame at h
  split at h
  · dsimp only at h
    rw [Option.map_eq_some_iff] at h
    obtain ⟨p, hp, rfl⟩ := h
    have := writeRows_fit hs _ _ hp
    exact ⟨h1, h2, this.1.trans h3, h4, h5, this.2 h6, h7, h8⟩
  · split at h
    · rw [Option.map_eq_some_iff] at h
      obtain ⟨p, hp, rfl⟩ := h
      have := writeRows_fit hs _ _ hp
      exact ⟨h1, h2, h3, this.1.trans h4, h5, h6, this.2 h7, h8⟩
    · split at h
      · rw [Option.map_eq_some_iff] at h
        obtain ⟨p, hp, rfl⟩ := h
        have := writeRows_fit hs _ _ hp
        exact ⟨h1, h2, h3, h4, this.1.trans h5, h6, h7, this.2 h8⟩
      · cases h

theorem pframeCopy_fits {g f f' : Frame} {row col n : Nat} {src : Option Frame} (hs : ∀ s, src = some s → s.Bytes)
    (hf : g.Fits f) (h : pframeCopy row col n f src = some f') : g.Fits f' := by
  obtain ⟨h1, h2, h3, h4, h5, h6, h7, h8⟩ := hf
  unfold pframeCopy at h
  cases src with
  | none => cases h
  | some s =>
    obtain ⟨b1, b2, b3⟩ := hs s rfl
    dsimp only at h
    split at h
    · rename_i y cb cr e1 e2 e3
      cases h
      have f1 := copyRows_fit b1 _ _ e1
      have f2 := copyRows_fit b2 _ _ e2
      have f3 := copyRows_fit b3 _ _ e3
      exact ⟨h1, h2, f1.1.trans h3, f2.1.trans h4, f3.1.trans h5, f1.2 h6, f2.2 h7, f3.2 h8⟩
    · cases h

theorem clamp8_le (x : Int) : clamp8 x ≤ 255 := by
  unfold clamp8; split
  · omega
  · split <;> omega

theorem finishBlock_fits {g f f' : Frame} {e : PicEnv} {d : MVD} {b : Block} {i addr row : Nat} {il : Bool}
    (hf : g.Fits f) (h : finishBlock e d b i addr row il f = some f') : g.Fits f' := by
  unfold finishBlock at h
  split at h
  · cases h
  · exact updateFrame_fits (fun i => clamp8_le _) hf h

theorem bcopyBlocks_none {e : PicEnv} {d : MVD} {addr row k : Nat} {f : Frame}
    (h : finishBlock e d Block.zero (5 - k) addr row false f = none) : bcopyBlocks e d addr row (k + 1) f = none := by
  show (match finishBlock e d Block.zero (5 - k) addr row false f with
    | none => none
    | some f' => bcopyBlocks e d addr row k f') = _
  rw [h]

theorem bframeCopy_none {e : PicEnv} {d : MVD} {addr row n : Nat} {f : Frame}
    (h : bcopyBlocks e d addr row 6 f = none) : bframeCopy e d row addr (n + 1) f = none := by
  show (match bcopyBlocks e d addr row 6 f with
    | none => none
    | some f' => bframeCopy e d row (addr + 1) n f') = _
  rw [h]

theorem bcopyBlocks_fits {g : Frame} {e : PicEnv} {d : MVD} {addr row : Nat} (k : Nat) : ∀ {f f' : Frame},
    g.Fits f → bcopyBlocks e d addr row k f = some f' → g.Fits f' := by
  induction k with
  | zero => intro f f' hf h; have h : some f = some f' := h; rw [← Option.some.inj h]; exact hf
  | succ k ih =>
    intro f f' hf h
    cases h1 : finishBlock e d Block.zero (5 - k) addr row false f with
    | none => rw [bcopyBlocks_none h1] at h; exact absurd h.symm (Option.some_ne_none _)
    | some f1 => rw [bcopyBlocks_step h1] at h; exact ih (finishBlock_fits hf h1) h

theorem bframeCopy_fits {g : Frame} {e : PicEnv} {d : MVD} {row : Nat} (n : Nat) : ∀ (addr : Nat) {f f' : Frame},
    g.Fits f → bframeCopy e d row addr n f = some f' → g.Fits f' := by
  induction n with
  | zero => intro addr f f' hf h; have h : some f = some f' := h; rw [← Option.some.inj h]; exact hf
  | succ n ih =>
    intro addr f f' hf h
    cases h1 : bcopyBlocks e d addr row 6 f with
    | none => rw [bframeCopy_none h1] at h; exact absurd h.symm (Option.some_ne_none _)
    | some f1 => rw [bframeCopy_step h1] at h; exact ih _ (bcopyBlocks_fits _ hf h1) h

/-! ### macroblocks -/

/-- a predicate on the frame alone -/
def OnFrame (P : Frame → Prop) (s : MB) : Prop := P s.frame

theorem fr_lift {α : Type} {P : Frame → Prop} (m : Go BR α) : Keeps (OnFrame P) (MB.lift m) := fun _ h => h

theorem fr_copySkipped {P : Frame → Prop} {e : PicEnv} {row : Nat} {addr : Option Nat} {incr : Nat}
    (hp : ∀ f f' a n, e.ph.pictureCodingType = pFrame → P f → pframeCopy row a n f e.past = some f' → P f')
    (hb : ∀ d f f' a n, e.ph.pictureCodingType = bFrame → P f → bframeCopy e d row a n f = some f' → P f') :
    Keeps (OnFrame P) (copySkipped e row addr incr) := by
  intro s h
  unfold copySkipped
  cases addr with
  | none => exact h
  | some a =>
    dsimp only
    split
    · split
      · rename_i ht
        cases hx : pframeCopy row (a + 1) (incr - 1) s.frame e.past with
        | none => exact h
        | some f => exact hp _ _ _ _ ht h hx
      · split
        · rename_i ht
          cases hx : bframeCopy e s.mvd row (a + 1) (incr - 1) s.frame with
          | none => exact h
          | some f => exact hb _ _ _ _ _ ht h hx
        · exact h
    · exact h

theorem fr_mbBlock {P : Frame → Prop} (e : PicEnv) (intra coded : Bool) (i : Nat) (b : Block) :
    Keeps (OnFrame P) (mbBlock e intra coded i b) := by
  intro s h
  unfold mbBlock
  split
  · split <;> exact h
  · exact h

theorem fr_mbBlocks {P : Frame → Prop} {e : PicEnv} {row addr : Nat}
    (hf : ∀ d b i il f f', P f → finishBlock e d b i addr row il f = some f' → P f') (intra il : Bool) (coded : Nat → Bool) :
    ∀ k i b, Keeps (OnFrame P) (mbBlocks e intra il coded addr row k i b) := by
  intro k
  induction k with
  | zero => intro i b; exact keeps_pure _
  | succ k ih =>
    intro i b
    unfold mbBlocks
    refine keeps_bind (fr_mbBlock _ _ _ _ _) fun b' => ?_
    intro s hs
    rw [Go.bind_ok (Go.get_apply s)]
    cases hx : finishBlock e s.mvd b' i addr row il s.frame with
    | none => exact hs
    | some f => exact ih _ _ _ (hf _ _ _ _ _ _ hs hx)

theorem fr_motionVectors {P : Frame → Prop} (e : PicEnv) (s : Nat) (m : Mode) : Keeps (OnFrame P) (motionVectors e s m) := by
  have hv : ∀ info r, Keeps (OnFrame P) (motionVector e info r s) := by
    intro info r
    unfold motionVector motionVectorPart
    exact keeps_bind (keeps_bind (fr_lift _) fun _ => keeps_ite keeps_panic (keeps_modify fun _ h => h)) fun _ =>
      keeps_bind (fr_lift _) fun _ => keeps_ite keeps_panic (keeps_modify fun _ h => h)
  unfold motionVectors
  refine keeps_bind (keeps_orPanic _) fun info => keeps_ite ?_ ?_
  · exact keeps_bind (keeps_opt (fr_lift _)) fun _ => hv _ _
  · exact keeps_bind (fr_lift _) fun _ => keeps_bind (hv _ _) fun _ => keeps_bind (fr_lift _) fun _ => hv _ _

theorem fr_mbVectors {P : Frame → Prop} (e : PicEnv) (m : Mode) : Keeps (OnFrame P) (mbVectors e m) := by
  unfold mbVectors
  exact keeps_bind (keeps_opt (keeps_bind (fr_lift _) fun _ => keeps_modify fun _ h => h)) fun _ =>
    keeps_bind (keeps_opt (fr_motionVectors _ _ _)) fun _ => keeps_bind (keeps_opt (fr_motionVectors _ _ _)) fun _ =>
    keeps_bind (keeps_modify fun _ h => h) fun _ => keeps_opt (fr_lift _)

/-- what the parts that write to the frame keep, the picture keeps -/
structure FrameKeep (e : PicEnv) (P : Frame → Prop) : Prop where
  pcopy : ∀ row f f' a n, e.ph.pictureCodingType = pFrame → P f → pframeCopy row a n f e.past = some f' → P f'
  bcopy : ∀ row d f f' a n, e.ph.pictureCodingType = bFrame → P f → bframeCopy e d row a n f = some f' → P f'
  block : blockCount e.se.chromaFormat ≠ 0 → ∀ row addr d b i il f f', P f → finishBlock e d b i addr row il f = some f' → P f'

theorem fr_mbFinish {P : Frame → Prop} {e : PicEnv} (hk : FrameKeep e P) (row a : Nat) (m : Mode) (cbp : Nat) :
    Keeps (OnFrame P) (mbFinish e row a m cbp) := by
  unfold mbFinish
  refine keeps_bind ?_ fun _ => keeps_pure _
  by_cases h0 : blockCount e.se.chromaFormat = 0
  · rw [h0]; exact keeps_pure _
  · exact fr_mbBlocks (hk.block h0 row a) _ _ _ _ _ _

theorem fr_mbPattern {P : Frame → Prop} {e : PicEnv} (hk : FrameKeep e P) (row a : Nat) (m : Mode) :
    Keeps (OnFrame P) (mbPattern e row a m) := by
  unfold mbPattern
  refine keeps_ite (fun s h => ?_) (fr_mbFinish hk _ _ _ _)
  have h' := fr_lift (P := P) (codedBlockPattern e.se.chromaFormat) s h
  unfold mbCoded
  rcases hr : MB.lift (codedBlockPattern e.se.chromaFormat) s with ⟨r, s'⟩
  rw [hr] at h'
  cases r with
  | ok cbp => exact fr_mbFinish hk _ _ _ _ _ h'
  | err x => exact h'
  | panic => exact h'
  | hang => exact h'

theorem fr_macroblock {P : Frame → Prop} {e : PicEnv} (hk : FrameKeep e P) (row : Nat) (addr : Option Nat) :
    Keeps (OnFrame P) (macroblock e row addr) := by
  unfold macroblock
  exact keeps_bind (fr_lift _) fun incr => keeps_bind (fr_copySkipped (hk.pcopy row) (hk.bcopy row)) fun _ =>
    keeps_bind (keeps_modify fun _ h => h) fun _ => keeps_bind (fr_lift _) fun m =>
    keeps_bind (keeps_modify fun _ h => h) fun _ => keeps_bind (fr_mbVectors _ _) fun _ => fr_mbPattern hk _ _ _

theorem fr_mbLoop {P : Frame → Prop} {e : PicEnv} (hk : FrameKeep e P) (row : Nat) : ∀ fuel addr,
    Keeps (OnFrame P) (mbLoop e row fuel addr)
  | 0, addr => keeps_hang
  | fuel + 1, addr => keeps_bind (fr_macroblock hk row addr) fun a => keeps_bind (fr_lift _) fun v =>
      keeps_ite (keeps_pure _) (fr_mbLoop hk row fuel _)

theorem fr_slice {P : Frame → Prop} {e : PicEnv} (hk : FrameKeep e P) : Keeps (OnFrame P) (slice e) := by
  unfold slice
  refine keeps_bind (fr_lift _) fun code => keeps_bind (keeps_check _ _) fun _ => keeps_bind keeps_get fun s => ?_
  exact keeps_ite keeps_panic (keeps_bind (fr_lift _) fun q => keeps_bind (keeps_modify fun _ h => h) fun _ =>
    keeps_bind (fun s h => fr_mbLoop hk _ _ _ s h) fun _ => fr_lift _)

theorem fr_sliceLoop {P : Frame → Prop} {e : PicEnv} (hk : FrameKeep e P) : ∀ fuel, Keeps (OnFrame P) (sliceLoop e fuel)
  | 0 => keeps_hang
  | fuel + 1 => keeps_bind (fr_slice hk) fun _ => keeps_bind (fr_lift _) fun v =>
      keeps_ite (fr_sliceLoop hk fuel) (keeps_pure _)

/-! ### chroma formats 4:2:2 and 4:4:4 -/

/-- `m` never succeeds -/
def Never {σ α : Type} (m : Go σ α) : Prop := ∀ s a s', m s ≠ (.ok a, s')

theorem never_panic {σ α : Type} : Never (Go.panic : Go σ α) := fun _ _ _ h => by cases h
theorem never_hang {σ α : Type} : Never (Go.hang : Go σ α) := fun _ _ _ h => by cases h
theorem never_right {σ α β : Type} {m : Go σ α} {f : α → Go σ β} (h : ∀ a, Never (f a)) : Never (m >>= f) := by
  intro s a s' hs
  obtain ⟨_, _, _, h2⟩ := Go.bind_eq_ok hs
  exact h _ _ _ _ h2
theorem never_left {σ α β : Type} {m : Go σ α} {f : α → Go σ β} (h : Never m) : Never (m >>= f) := by
  intro s a s' hs
  obtain ⟨_, _, h1, _⟩ := Go.bind_eq_ok hs
  exact h _ _ _ h1

theorem finishBlock_six {e : PicEnv} {d : MVD} {b : Block} {addr row : Nat} {il : Bool} {f : Frame} :
    finishBlock e d b 6 addr row il f = none := by
  unfold finishBlock
  split
  · rfl
  · rfl

theorem never_mbBlocks {e : PicEnv} {row addr : Nat} {intra il : Bool} {coded : Nat → Bool} :
    ∀ k i b, i ≤ 6 → 6 < i + k → Never (mbBlocks e intra il coded addr row k i b)
  | 0, i, b, h1, h2 => by omega
  | k + 1, i, b, h1, h2 => by
    unfold mbBlocks
    refine never_right fun b' => never_right fun s => ?_
    by_cases h6 : i = 6
    · subst h6; rw [finishBlock_six]; exact never_left never_panic
    · exact never_right fun f => never_right fun _ => never_mbBlocks k (i + 1) b' (by omega) (by omega)

theorem never_macroblock {e : PicEnv} (hc : e.se.chromaFormat = 2 ∨ e.se.chromaFormat = 3) (row : Nat) (addr : Option Nat) :
    Never (macroblock e row addr) := by
  have hf : ∀ a m cbp, Never (mbFinish e row a m cbp) := by
    intro a m cbp
    unfold mbFinish
    exact never_left (never_mbBlocks _ _ _ (by omega) (by rcases hc with h | h <;> rw [h] <;> decide))
  unfold macroblock
  refine never_right fun incr => never_right fun _ => never_right fun _ => never_right fun m => never_right fun _ =>
    never_right fun _ => ?_
  unfold mbPattern
  split
  · intro s a s' h
    unfold mbCoded at h
    rcases hr : MB.lift (codedBlockPattern e.se.chromaFormat) s with ⟨r, t⟩
    rw [hr] at h
    have hr' : (codedBlockPattern e.se.chromaFormat s.br).1 = r := by
      unfold MB.lift at hr
      rw [Prod.mk.injEq] at hr
      exact hr.1
    unfold codedBlockPattern at hr'
    split at hr'
    · subst hr'; cases h
    · subst hr'; cases h
    · rw [if_pos hc] at hr'
      subst hr'; cases h
  · exact hf _ _ _

theorem never_slice {e : PicEnv} (hc : e.se.chromaFormat = 2 ∨ e.se.chromaFormat = 3) : Never (slice e) := by
  unfold slice
  refine never_right fun code => never_right fun _ => never_right fun s => ?_
  split
  · exact never_panic
  · refine never_right fun _ => never_right fun _ => never_left ?_
    intro s a s' h
    unfold mbLoopAll fuelOf mbLoop at h
    exact never_left (never_macroblock hc _ _) _ _ _ h

theorem never_sliceLoop {e : PicEnv} (hc : e.se.chromaFormat = 2 ∨ e.se.chromaFormat = 3) : ∀ fuel, Never (sliceLoop e fuel)
  | 0 => never_hang
  | fuel + 1 => never_left (never_slice hc)

end Mpeg.Video
