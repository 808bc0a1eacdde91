/-
The decoder refines the reference decoder: predictions, skipped macroblocks.
-/
import Verif.Video.RefLemmas
import Verif.Video.RefRel
namespace Mpeg.Video
open Spec

/-! ### predictions -/

theorem interpolate_congr {p p' : Nat → Nat → Nat} {x y : Nat} {hh vh : Bool}
    (h : ∀ a b, x ≤ a → a ≤ x + hh.toNat → y ≤ b → b ≤ y + vh.toNat → p a b = p' a b) :
    interpolate p x y hh vh = interpolate p' x y hh vh := by
  cases hh <;> cases vh <;> simp only [Bool.toNat_false, Bool.toNat_true] at h <;> unfold interpolate <;> dsimp only
  · rw [h x y (by omega) (by omega) (by omega) (by omega)]
  · rw [h x y (by omega) (by omega) (by omega) (by omega), h x (y + 1) (by omega) (by omega) (by omega) (by omega)]
  · rw [h x y (by omega) (by omega) (by omega) (by omega), h (x + 1) y (by omega) (by omega) (by omega) (by omega)]
  · rw [h x y (by omega) (by omega) (by omega) (by omega), h x (y + 1) (by omega) (by omega) (by omega) (by omega),
      h (x + 1) y (by omega) (by omega) (by omega) (by omega),
      h (x + 1) (y + 1) (by omega) (by omega) (by omega) (by omega)]

/-- Coordinates of a pixel of a macroblock by block and position, in frame DCT order. -/
theorem frame_coords {c x y row addr : Nat} (hc : c < 3) (hin : inMB (side c) row addr x y) :
    blockX (blockAt false c x y) addr + indexAt false c x y % 8 = x ∧
    blockY (blockAt false c x y) row + indexAt false c x y / 8 = y ∧
    (blockAt false c x y < 4 ↔ c = 0) ∧ (blockAt false c x y = 4 ↔ c = 1) := by
  unfold inMB side at hin
  rcases three hc with rfl | rfl | rfl
  · simp only [↓reduceIte] at hin
    obtain ⟨h1, h2⟩ := hin
    have hb : lumaBlock false (x % 16) (y % 16) = 2 * (y % 16 / 8) + x % 16 / 8 := rfl
    have hk : lumaIndex false (x % 16) (y % 16) = 8 * (y % 16 % 8) + x % 16 % 8 := rfl
    simp only [blockAt, indexAt, ↓reduceIte, hb, hk]
    have h4 : 2 * (y % 16 / 8) + x % 16 / 8 < 4 := by omega
    unfold blockX blockY
    rw [if_pos h4, if_pos h4]
    exact ⟨by omega, by omega, ⟨fun _ => trivial, fun _ => h4⟩, ⟨fun h => by omega, fun h => by omega⟩⟩
  · simp only [Nat.one_ne_zero, ↓reduceIte] at hin
    simp only [blockAt, indexAt, Nat.one_ne_zero, ↓reduceIte]
    unfold blockX blockY
    rw [if_neg (by omega), if_neg (by omega)]
    exact ⟨by omega, by omega, by decide, by decide⟩
  · have h2' : ¬ (2 = 0) := by omega
    simp only [h2', ↓reduceIte] at hin
    simp only [blockAt, indexAt, h2', ↓reduceIte]
    unfold blockX blockY
    rw [if_neg (by omega), if_neg (by omega)]
    exact ⟨by omega, by omega, by decide, by decide⟩

theorem predict_at {f : Frame} {P : Image} {W H row addr c x y : Nat} {m : Vec} (sh : Shows W H f P)
    (hX : inside (16 * addr) 16 (16 * W) m.h) (hY : inside (16 * row) 16 (16 * H) m.v) (hc : c < 3)
    (hin : inMB (side c) row addr x y) :
    predict f (blockAt false c x y) row addr m.h m.v (indexAt false c x y % 8) (indexAt false c x y / 8) =
      predictAt P m.h m.v c x y := by
  obtain ⟨h1, h2, h3, h4⟩ := frame_coords hc hin
  have h64 := indexAt_lt false (c := c) x y
  obtain ⟨i1, i2⟩ := C56_inside hX hY (blockAt false c x y)
  unfold predict predictAt
  generalize indexAt false c x y = k at *
  generalize blockAt false c x y = i at *
  have e1 : ∀ m, blockVec i m = compVec c m := by
    intro m; unfold blockVec compVec
    by_cases hh : c = 0
    · rw [if_pos (h3.2 hh), if_pos hh]
    · rw [if_neg (fun h => hh (h3.1 h)), if_neg hh]
  have e2 : ∀ n, compSize i n = side c * n := by
    intro n; unfold compSize side
    by_cases hh : c = 0
    · rw [if_pos (h3.2 hh), if_pos hh]
    · rw [if_neg (fun h => hh (h3.1 h)), if_neg hh]
  have e3 : ∀ a b, pix f i a b = sampleOf f c a b := by
    intro a b; unfold pix sampleOf
    by_cases hh : c = 0
    · rw [if_pos (h3.2 hh), if_pos hh]
    · rw [if_neg (fun h => hh (h3.1 h)), if_neg hh]
      by_cases hh' : c = 1
      · rw [if_pos (h4.2 hh'), if_pos hh']
      · rw [if_neg (fun h => hh' (h4.1 h)), if_neg hh']
  rw [e1, e2] at i1 i2
  rw [e1, e1]
  have e4 : (blockX i addr : Int) + (k % 8 : Nat) = x := by omega
  have e5 : (blockY i row : Int) + (k / 8 : Nat) = y := by omega
  rw [e4, e5]
  unfold inside at i1 i2
  apply interpolate_congr
  intro a b ha1 ha2 hb1 hb2
  rw [e3]
  have f1 : (decide (compVec c m.h % 2 = 1)).toNat ≤ (compVec c m.h % 2).toNat := by
    by_cases h : compVec c m.h % 2 = 1 <;> simp [h]
  have f2 : (decide (compVec c m.v % 2 = 1)).toNat ≤ (compVec c m.v % 2).toNat := by
    by_cases h : compVec c m.v % 2 = 1 <;> simp [h]
  have g1 : 0 ≤ compVec c m.h % 2 := by omega
  have g2 : 0 ≤ compVec c m.v % 2 := by omega
  exact sh.2 c a b hc (by omega) (by omega)

theorem refOK_fwd {W H row addr : Nat} {e : PicEnv} {r : RefPics} {m : MVD} {d : DState} {F : Prop} (hr : RefsIf F W H e r)
    (hd : Dirs e.ph.pictureCodingType d) (hF : d.fwd = true → F) (hv : VecRel m d) (hin : DState.Inside d W H row addr) :
    RefOK W H row addr (m.fwdRef e.past) ∧ RefOK W H row addr (m.bwdRef e.future) := by
  constructor
  · intro f v h
    unfold MVD.fwdRef at h
    split at h
    · rename_i hf
      rw [hv.fwd] at hf
      rcases hr.1 (hd.1 hf) (hF hf) with ⟨h1, _⟩ | ⟨g, P, h1, _, h3⟩
      · rw [h1] at h; cases h
      · rw [h1] at h; cases h
        obtain ⟨a, b⟩ := hin.1 hf
        refine ⟨h3.1, ?_, ?_⟩
        · show inside _ _ _ (m.act 0 0 0); rw [hv.act 0 0 (by omega) (by omega)]; exact a
        · show inside _ _ _ (m.act 0 0 1); rw [hv.act 0 1 (by omega) (by omega)]; exact b
    · cases h
  · intro f v h
    unfold MVD.bwdRef at h
    split at h
    · rename_i hf
      rw [hv.bwd] at hf
      rcases hr.2 (hd.2 hf) with ⟨h1, _⟩ | ⟨g, P, h1, _, h3⟩
      · rw [h1] at h; cases h
      · rw [h1] at h; cases h
        obtain ⟨a, b⟩ := hin.2 hf
        refine ⟨h3.1, ?_, ?_⟩
        · show inside _ _ _ (m.act 0 1 0); rw [hv.act 1 0 (by omega) (by omega)]; exact a
        · show inside _ _ _ (m.act 0 1 1); rw [hv.act 1 1 (by omega) (by omega)]; exact b
    · cases h

theorem blockPred_at {W H row addr c x y : Nat} {e : PicEnv} {r : RefPics} {m : MVD} {d : DState} {F : Prop}
    (hr : RefsIf F W H e r) (hd : Dirs e.ph.pictureCodingType d) (hF : d.fwd = true → F) (hv : VecRel m d) (hin : DState.Inside d W H row addr) (hc : c < 3)
    (hmb : inMB (side c) row addr x y) :
    blockPred (m.fwdRef e.past) (m.bwdRef e.future) (blockAt false c x y) row addr (indexAt false c x y % 8)
      (indexAt false c x y / 8) = d.predicted r c x y := by
  unfold blockPred DState.predicted
  congr 1
  · unfold MVD.fwdRef
    rw [hv.fwd]
    cases hf : d.fwd with
    | false => rfl
    | true =>
      simp only [↓reduceIte]
      rcases hr.1 (hd.1 hf) (hF hf) with ⟨h1, h2⟩ | ⟨g, P, h1, h2, h3⟩
      · rw [h1, h2]; rfl
      · obtain ⟨a, b⟩ := hin.1 hf
        rw [h1, h2]
        simp only [Option.map_some]
        rw [hv.act 0 0 (by omega) (by omega), hv.act 0 1 (by omega) (by omega)]
        exact congrArg some (predict_at (m := ⟨d.vec 0 0, d.vec 0 1⟩) h3 a b hc hmb)
  · unfold MVD.bwdRef
    rw [hv.bwd]
    cases hf : d.bwd with
    | false => rfl
    | true =>
      simp only [↓reduceIte]
      rcases hr.2 (hd.2 hf) with ⟨h1, h2⟩ | ⟨g, P, h1, h2, h3⟩
      · rw [h1, h2]; rfl
      · obtain ⟨a, b⟩ := hin.2 hf
        rw [h1, h2]
        simp only [Option.map_some]
        rw [hv.act 1 0 (by omega) (by omega), hv.act 1 1 (by omega) (by omega)]
        exact congrArg some (predict_at (m := ⟨d.vec 1 0, d.vec 1 1⟩) h3 a b hc hmb)

theorem blockPred_none {row addr i u v : Nat} {e : PicEnv} {m : MVD} (hf : m.fwd = false) (hb : m.bwd = false) :
    blockPred (m.fwdRef e.past) (m.bwdRef e.future) i row addr u v = 0 := by
  unfold blockPred MVD.fwdRef MVD.bwdRef
  rw [hf, hb]; rfl

theorem predicted_none {d : DState} {r : RefPics} {c x y : Nat} (hf : d.fwd = false) (hb : d.bwd = false) :
    d.predicted r c x y = 0 := by
  unfold DState.predicted
  rw [hf, hb]; rfl

theorem clip_eq (x : Int) : clamp8 x = clip x := by
  unfold clamp8 clip
  split
  · omega
  · split <;> omega

/-! ### skipped macroblocks -/

theorem bcopyBlocks_step {e : PicEnv} {d : MVD} {addr row k : Nat} {f f1 : Frame}
    (h : finishBlock e d Block.zero (5 - k) addr row false f = some f1) :
    bcopyBlocks e d addr row (k + 1) f = bcopyBlocks e d addr row k f1 := by
  show (match finishBlock e d Block.zero (5 - k) addr row false f with
    | none => none
    | some f' => bcopyBlocks e d addr row k f') = _
  rw [h]

theorem bframeCopy_step {e : PicEnv} {d : MVD} {addr row n : Nat} {f f1 : Frame}
    (h : bcopyBlocks e d addr row 6 f = some f1) :
    bframeCopy e d row addr (n + 1) f = bframeCopy e d row (addr + 1) n f1 := by
  show (match bcopyBlocks e d addr row 6 f with
    | none => none
    | some f' => bframeCopy e d row (addr + 1) n f') = _
  rw [h]

theorem bcopyBlocks_run {e : PicEnv} {d : MVD} {W H row addr : Nat} (hr : row < H) (ha : addr < W)
    (hf : RefOK W H row addr (d.fwdRef e.past)) (hb : RefOK W H row addr (d.bwdRef e.future)) :
    ∀ k (f : Frame), k ≤ 6 → Geometry f W H → ∃ f', bcopyBlocks e d addr row k f = some f' ∧
      PlacedAll W H row addr false (6 - k) 6 (fun j k => clamp8
        (blockPred (d.fwdRef e.past) (d.bwdRef e.future) j row addr (k % 8) (k / 8))) f f' := by
  intro k
  induction k with
  | zero =>
    intro f _ hg
    exact ⟨f, rfl, hg, fun c x y _ _ => by rw [if_neg (by omega)]⟩
  | succ k ih =>
    intro f hk hg
    have hi : 5 - k < 6 := by omega
    obtain ⟨f1, s1, h4, h5, h6⟩ := finishBlock_run (e := e) (d := d) (field := false) hg hr ha hi hf hb Block.zero
    obtain ⟨f', h7, h8⟩ := ih f1 (by omega) h5.geo
    refine ⟨f', ?_, h8.geo, fun c x y hc hx => ?_⟩
    · rw [bcopyBlocks_step h4]; exact h7
    · rw [h8.pix c x y hc hx, h5.pix c x y hc hx]
      have h64 := indexAt_lt false (c := c) x y
      by_cases hin : inMB (side c) row addr x y
      · have hb6 := blockAt_lt false hc x y
        by_cases heq : blockAt false c x y = 5 - k
        · rw [if_neg (by omega), if_pos ⟨hin, heq⟩, if_pos ⟨hin, by omega, hb6⟩, h6 _ h64, heq]
          simp [Block.zero]
        · by_cases hgt : 6 - k ≤ blockAt false c x y
          · rw [if_pos ⟨hin, hgt, hb6⟩, if_pos ⟨hin, by omega, hb6⟩]
          · rw [if_neg (by omega), if_neg (by omega), if_neg (by omega)]
      · rw [if_neg (fun h => hin h.1), if_neg (fun h => hin h.1), if_neg (fun h => hin h.1)]

/-- Predictions from pictures of sample values are sample values. -/
theorem interpolate_le {p : Nat → Nat → Nat} (h : ∀ x y, p x y ≤ 255) (x y : Nat) (hh vh : Bool) :
    interpolate p x y hh vh ≤ 255 := by
  have h1 := h x y
  have h2 := h (x + 1) y
  have h3 := h x (y + 1)
  have h4 := h (x + 1) (y + 1)
  cases hh <;> cases vh <;> simp only [interpolate] <;> omega

theorem predicted_le {d : DState} {r : RefPics} (h1 : Samples r.past) (h2 : Samples r.future) (c x y : Nat) :
    d.predicted r c x y ≤ 255 := by
  unfold DState.predicted
  have k1 : ∀ n, (if d.fwd then r.past.map fun P => predictAt P (d.vec 0 0) (d.vec 0 1) c x y else none) = some n →
      n ≤ 255 := by
    intro n h
    split at h
    · obtain ⟨P, hP, rfl⟩ := Option.map_eq_some_iff.1 h
      exact interpolate_le (h1 P hP c) _ _ _ _
    · cases h
  have k2 : ∀ n, (if d.bwd then r.future.map fun P => predictAt P (d.vec 1 0) (d.vec 1 1) c x y else none) = some n →
      n ≤ 255 := by
    intro n h
    split at h
    · obtain ⟨P, hP, rfl⟩ := Option.map_eq_some_iff.1 h
      exact interpolate_le (h2 P hP c) _ _ _ _
    · cases h
  generalize (if d.fwd then r.past.map fun P => predictAt P (d.vec 0 0) (d.vec 0 1) c x y else none) = a at k1
  generalize (if d.bwd then r.future.map fun P => predictAt P (d.vec 1 0) (d.vec 1 1) c x y else none) = b at k2
  cases a <;> cases b
  · exact Nat.zero_le _
  · exact k2 _ rfl
  · exact k1 _ rfl
  · have := k1 _ rfl
    have := k2 _ rfl
    show (_ + _) / 2 ≤ 255
    omega

theorem bframeCopy_run {e : PicEnv} {r : RefPics} {m : MVD} {d : DState} {W H row : Nat} {F : Prop} (hrr : RefsIf F W H e r)
    (hF : d.fwd = true → F) (hpct : e.ph.pictureCodingType = 3) (hv : VecRel m d) (hr : row < H) (s1 : Samples r.past) (s2 : Samples r.future) :
    ∀ n a (f : Frame), a + n ≤ W → (∀ b, a ≤ b → b < a + n → DState.Inside d W H row b) → Geometry f W H →
      ∃ f', bframeCopy e m row a n f = some f' ∧ Geometry f' W H ∧
        ∀ c x y, c < 3 → x < side c * W → sampleOf f' c x y =
          if inRun (side c) row a n x y then d.predicted r c x y else sampleOf f c x y := by
  intro n
  induction n with
  | zero =>
    intro a f _ _ hg
    exact ⟨f, rfl, hg, fun c x y _ _ => by rw [if_neg (by unfold inRun; omega)]⟩
  | succ n ih =>
    intro a f han hin hg
    obtain ⟨o1, o2⟩ := refOK_fwd hrr ⟨fun _ => by omega, fun _ => hpct⟩ hF hv (hin a (by omega) (by omega))
    obtain ⟨f1, h1, h2⟩ := bcopyBlocks_run hr (by omega) o1 o2 6 f (by omega) hg
    obtain ⟨f', h3, h4, h5⟩ := ih (a + 1) f1 (by omega) (fun b hb1 hb2 => hin b (by omega) (by omega)) h2.geo
    refine ⟨f', ?_, h4, fun c x y hc hx => ?_⟩
    · rw [bframeCopy_step h1]; exact h3
    · rw [h5 c x y hc hx, h2.pix c x y hc hx]
      have hb6 := blockAt_lt false hc x y
      by_cases hmb : inMB (side c) row a x y
      · have hmb' := hmb
        unfold inMB at hmb'
        rw [if_neg (by unfold inRun; omega), if_pos ⟨hmb, by omega, hb6⟩, if_pos (by unfold inRun; omega),
          blockPred_at hrr ⟨fun _ => by omega, fun _ => hpct⟩ hF hv (hin a (by omega) (by omega)) hc hmb]
        have := predicted_le (d := d) s1 s2 c x y
        rw [clip_eq]; unfold clip; omega
      · by_cases hrun : inRun (side c) row (a + 1) n x y
        · rw [if_pos hrun]
          unfold inRun at hrun
          rw [if_pos (by unfold inRun; omega)]
        · rw [if_neg hrun, if_neg (fun h => hmb h.1)]
          unfold inMB at hmb
          unfold inRun at hrun
          rw [if_neg (by unfold inRun; omega)]

theorem copySkipped_run {e : PicEnv} {r : RefPics} {s : MB} {d : DState} {W H row incr : Nat} {addr : Option Nat}
    {F : Prop} (hrr : RefsIf F W H e r) (hF : d.fwd = true → F) (h2F : e.ph.pictureCodingType = 2 → F)
    (hrel : Rel W H s d) (hr : row < H) (s1 : Samples r.past) (s2 : Samples r.future)
    (hw : addrAfter addr incr < W)
    (hP : ∀ a, addr = some a → 1 < incr → e.ph.pictureCodingType = 2 → r.past ≠ none)
    (hB : ∀ a, addr = some a → e.ph.pictureCodingType = 3 → ∀ b, a < b → b < a + incr → DState.Inside d W H row b) :
    ∃ f', copySkipped e row addr incr s = (.ok (), { s with frame := f' }) ∧
      Shows W H f' (d.skip e r row addr incr).pic := by
  have hself : Shows W H s.frame d.pic := hrel.frame
  unfold DState.skip
  by_cases hi : incr ≤ 1
  · refine ⟨s.frame, ?_, ?_⟩
    · unfold copySkipped
      cases addr with
      | none => rfl
      | some a => dsimp only; rw [if_neg (by omega)]
    · rw [if_pos hi]; exact hself
  rw [if_neg hi]
  cases addr with
  | none => exact ⟨s.frame, rfl, hself⟩
  | some a =>
    have hw' : a + incr < W := hw
    dsimp only
    unfold copySkipped
    dsimp only
    rw [if_pos (show 1 < incr by omega)]
    by_cases h2 : e.ph.pictureCodingType = 2
    · rw [if_pos h2]
      rcases hrr.1 (by omega) (h2F h2) with ⟨_, hp⟩ | ⟨g, P, h1, hp, h3⟩
      · exact absurd hp (hP a rfl (by omega) h2)
      · obtain ⟨f', c1, c2, c3, c4, c5⟩ := C54 (col := a + 1) (n := incr - 1) hself.1 h3.1 hr (by omega)
        refine ⟨f', ?_, c2, fun c x y hc hx hy => ?_⟩
        · rw [h1, c1]; rfl
        · unfold DState.skipPic
          rw [h2, hp]
          simp only [↓reduceIte, Option.map_some, Option.getD_some]
          rw [← h3.2 c x y hc hx hy, ← hself.2 c x y hc hx hy]
          rcases three hc with rfl | rfl | rfl
          · exact c3 x y hx
          · exact c4 x y hx
          · exact c5 x y hx
    · rw [if_neg h2]
      by_cases h3 : e.ph.pictureCodingType = 3
      · rw [if_pos h3]
        obtain ⟨f', c1, c2, c3⟩ := bframeCopy_run hrr hF h3 hrel.mvd hr s1 s2 (incr - 1) (a + 1) s.frame (by omega)
          (fun b hb1 hb2 => hB a rfl h3 b (by omega) (by omega)) hself.1
        refine ⟨f', ?_, c2, fun c x y hc hx hy => ?_⟩
        · rw [c1]; rfl
        · unfold DState.skipPic
          rw [h3]
          simp only [show ¬ (3 = 2) by omega, ↓reduceIte]
          rw [c3 c x y hc hx, hself.2 c x y hc hx hy]
      · rw [if_neg h3]
        refine ⟨s.frame, rfl, hself.1, fun c x y hc hx hy => ?_⟩
        unfold DState.skipPic
        rw [if_neg h2, if_neg h3, ite_self, hself.2 c x y hc hx hy]

end Mpeg.Video
