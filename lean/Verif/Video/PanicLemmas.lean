/-
Panics of the sample operations and of blocks.
-/
import Verif.Video.PanicSpec
import Verif.Video.SynLemmas3
import Verif.Video.FrameLemmas
import Verif.Video.ShapeLemmas
import Mathlib.Tactic.Ring
import Mathlib.Tactic.Choose
set_option linter.all false
namespace Mpeg.Video
open Spec
open _root_.Mpeg.BR (Took)

/-! ### writes -/

theorem write_none {p : Plane} {off n : Nat} {src : Nat → Nat} : p.write off n src = none ↔ p.len < off + n := by
  unfold Plane.write
  split <;> simp <;> omega

theorem write_len {p p' : Plane} {off n : Nat} {src : Nat → Nat} (h : p.write off n src = some p') : p'.len = p.len := by
  unfold Plane.write at h
  split at h
  · cases h; rfl
  · cases h

theorem writeRows_none {base stride : Nat} {cb : Nat → Nat} : ∀ (k y : Nat) (p : Plane),
    writeRows base stride cb (k + 1) y p = none ↔ p.len < base + (y + k) * stride + 8
  | 0, y, p => by
    unfold writeRows
    cases h : p.write (base + y * stride) 8 (fun x => cb (y * 8 + x)) with
    | none => simpa using write_none.1 h
    | some p' =>
      have : ¬ _ := fun h' => by rw [write_none.2 h'] at h; cases h
      simpa [writeRows] using this
  | k + 1, y, p => by
    unfold writeRows
    cases h : p.write (base + y * stride) 8 (fun x => cb (y * 8 + x)) with
    | none =>
      have := write_none.1 h
      have h2 : y * stride ≤ (y + (k + 1)) * stride := Nat.mul_le_mul_right _ (by omega)
      simp only [true_iff]
      omega
    | some p' =>
      dsimp only
      rw [writeRows_none k (y + 1) p', write_len h, show y + 1 + k = y + (k + 1) from by omega]

theorem writeRows_len {base stride : Nat} {cb : Nat → Nat} : ∀ (k y : Nat) (p p' : Plane),
    writeRows base stride cb k y p = some p' → p'.len = p.len
  | 0, y, p, p', h => by cases h; rfl
  | k + 1, y, p, p', h => by
    unfold writeRows at h
    cases hw : p.write (base + y * stride) 8 (fun x => cb (y * 8 + x)) with
    | none => rw [hw] at h; cases h
    | some q => rw [hw] at h; rw [writeRows_len k _ _ _ h, write_len hw]

theorem updateFrame_geometry {f f' : Frame} {W H i a row : Nat} {il : Bool} {cb : Nat → Nat} (g : Geometry f W H)
    (h : updateFrame i a row il f cb = some f') : Geometry f' W H := by
  obtain ⟨g1, g2, g3, g4, g5⟩ := g
  unfold updateFrame at h
  repeat' split at h
  all_goals first
    | cases h; done
    | ((try dsimp only at h)
       rw [Option.map_eq_some_iff] at h
       obtain ⟨p, hp, rfl⟩ := h
       have := writeRows_len _ _ _ _ hp
       refine ⟨g1, g2, ?_, ?_, ?_⟩ <;> dsimp only <;> omega)

theorem updateFrame_none {f : Frame} {W H i a row : Nat} {il : Bool} {cb : Nat → Nat} (g : Geometry f W H) (hi : i < 6) :
    updateFrame i a row il f cb = none ↔ ¬ FitsBlock W H row a il i := by
  obtain ⟨g1, g2, g3, g4, g5⟩ := g
  unfold updateFrame FitsBlock
  by_cases h4 : i < 4
  · rw [if_pos h4, if_pos h4]
    dsimp only
    rw [Option.map_eq_none_iff, writeRows_none 7 0 f.y, g3, g1, Nat.not_lt]
    have e2 : i / 2 % 2 = i / 2 := by omega
    rw [e2]
    generalize i / 2 = u
    generalize i % 2 = w
    have e3 : 16 * W * (16 * H) = 16 * H * (16 * W) := by ring
    rw [e3]
    generalize 16 * H * (16 * W) = N
    cases il with
    | true =>
      simp only [if_true, Nat.zero_add]
      have : 16 * row * (16 * W) + a * 16 + w * 8 + u * (16 * W) + 7 * (16 * W * 2) + 8 =
        (16 * row + (u + 14)) * (16 * W) + (16 * a + 8 * w + 7) + 1 := by ring
      omega
    | false =>
      simp only [Bool.false_eq_true, if_false, Nat.zero_add]
      have : 16 * row * (16 * W) + a * 16 + w * 8 + u * 8 * (16 * W) + 7 * (16 * W) + 8 =
        (16 * row + (8 * u + 7)) * (16 * W) + (16 * a + 8 * w + 7) + 1 := by ring
      omega
  · rw [if_neg h4, if_neg h4]
    have key : 8 * row * (8 * W) + a * 8 + (0 + 7) * (8 * W) + 8 = (8 * row + 7) * (8 * W) + (8 * a + 7) + 1 := by ring
    have e3 : 8 * W * (8 * H) = 8 * H * (8 * W) := by ring
    by_cases h : i = 4
    · rw [if_pos h, Option.map_eq_none_iff, writeRows_none 7 0 f.cb, g4, g2, Nat.not_lt, e3]
      omega
    · rw [if_neg h, if_pos (by omega), Option.map_eq_none_iff, writeRows_none 7 0 f.cr, g5, g2, Nat.not_lt, e3]
      omega

/-! ### copies -/

theorem copyFrom_none {d s : Plane} {di si w : Nat} : d.copyFrom s di si w = none ↔ s.len < si + w ∨ d.len < di + w := by
  unfold Plane.copyFrom
  split
  · rw [write_none]; omega
  · simp; omega

theorem copyFrom_len {d s d' : Plane} {di si w : Nat} (h : d.copyFrom s di si w = some d') : d'.len = d.len := by
  unfold Plane.copyFrom at h
  split at h
  · exact write_len h
  · cases h

theorem copyRows_none {base stride x w : Nat} {s : Plane} : ∀ (k v : Nat) (d : Plane), s.len = d.len →
    (copyRows base stride base stride x w s (k + 1) v d = none ↔ d.len < base + (v + k) * stride + x + w)
  | 0, v, d, hl => by
    unfold copyRows
    cases h : d.copyFrom s (base + v * stride + x) (base + v * stride + x) w with
    | none => have := copyFrom_none.1 h; simp; omega
    | some d' =>
      have : ¬ _ := fun h' => by rw [copyFrom_none.2 h'] at h; cases h
      simp [copyRows]; omega
  | k + 1, v, d, hl => by
    unfold copyRows
    cases h : d.copyFrom s (base + v * stride + x) (base + v * stride + x) w with
    | none =>
      have := copyFrom_none.1 h
      have h2 : v * stride ≤ (v + (k + 1)) * stride := Nat.mul_le_mul_right _ (by omega)
      simp only [true_iff]
      omega
    | some d' =>
      dsimp only
      have hd := copyFrom_len h
      rw [copyRows_none k (v + 1) d' (by omega), hd, show v + 1 + k = v + (k + 1) from by omega]

theorem copyRows_len {db ds sb ss x w : Nat} {s : Plane} : ∀ (k v : Nat) (d d' : Plane),
    copyRows db ds sb ss x w s k v d = some d' → d'.len = d.len
  | 0, v, d, d', h => by cases h; rfl
  | k + 1, v, d, d', h => by
    unfold copyRows at h
    cases hw : d.copyFrom s (db + v * ds + x) (sb + v * ss + x) w with
    | none => rw [hw] at h; cases h
    | some q => rw [hw] at h; rw [copyRows_len k _ _ _ h, copyFrom_len hw]

theorem pframeCopy_geometry {d d' : Frame} {src : Option Frame} {W H row col n : Nat} (g : Geometry d W H)
    (h : pframeCopy row col n d src = some d') : Geometry d' W H := by
  obtain ⟨g1, g2, g3, g4, g5⟩ := g
  unfold pframeCopy at h
  split at h
  · cases h
  · split at h
    · rename_i h1 h2 h3
      cases h
      have := copyRows_len _ _ _ _ h1
      have := copyRows_len _ _ _ _ h2
      have := copyRows_len _ _ _ _ h3
      refine ⟨g1, g2, ?_, ?_, ?_⟩ <;> dsimp only <;> omega
    · cases h

theorem pframeCopy_none {d s : Frame} {W H row a n : Nat} (gd : Geometry d W H) (gs : Geometry s W H) (hn : 1 < n) :
    pframeCopy row (a + 1) (n - 1) d (some s) = none ↔ ¬ FitsCopy W H row (a + n) := by
  obtain ⟨a1, a2, a3, a4, a5⟩ := gd
  obtain ⟨b1, b2, b3, b4, b5⟩ := gs
  have y := copyRows_none (base := 16 * row * (16 * W)) (stride := 16 * W) (x := (a + 1) * 16) (w := (n - 1) * 16) (s := s.y) 15 0 d.y
    (by omega)
  have cb := copyRows_none (base := 8 * row * (8 * W)) (stride := 8 * W) (x := (a + 1) * 8) (w := (n - 1) * 8) (s := s.cb) 7 0 d.cb
    (by omega)
  have cr := copyRows_none (base := 8 * row * (8 * W)) (stride := 8 * W) (x := (a + 1) * 8) (w := (n - 1) * 8) (s := s.cr) 7 0 d.cr
    (by omega)
  obtain ⟨m, rfl⟩ : ∃ m, n = m + 2 := ⟨n - 2, by omega⟩
  have k2 : 8 * row * (8 * W) + (0 + 7) * (8 * W) + (a + 1) * 8 + (m + 2 - 1) * 8 =
    (8 * row + 7) * (8 * W) + 8 * (a + (m + 2)) := by
    rw [show m + 2 - 1 = m + 1 from rfl]; ring
  have e3 : 8 * W * (8 * H) = 8 * H * (8 * W) := by ring
  rw [k2, a4, e3, ← Nat.not_le] at cb
  rw [k2, a5, e3, ← Nat.not_le] at cr
  have hy : FitsCopy W H row (a + (m + 2)) →
      copyRows (16 * row * (16 * W)) (16 * W) (16 * row * (16 * W)) (16 * W) ((a + 1) * 16) ((m + 2 - 1) * 16) s.y (15 + 1) 0 d.y ≠ none := by
    intro hf h
    rw [y, a3] at h
    unfold FitsCopy at hf
    have hH : row < H := by
      by_contra hh
      have : 8 * H * (8 * W) ≤ 8 * row * (8 * W) := Nat.mul_le_mul_right _ (by omega)
      have : (8 * row + 7) * (8 * W) = 8 * row * (8 * W) + 7 * (8 * W) := by ring
      omega
    obtain ⟨j, rfl⟩ : ∃ j, H = row + 1 + j := ⟨H - row - 1, by omega⟩
    rw [show m + 2 - 1 = m + 1 from rfl] at h
    have q1 : 8 * (row + 1 + j) * (8 * W) = (8 * row + 7) * (8 * W) + 8 * W + 64 * (j * W) := by ring
    have q2 : 16 * W * (16 * (row + 1 + j)) = 16 * row * (16 * W) + (0 + 15) * (16 * W) + 16 * W + 256 * (j * W) := by ring
    omega
  unfold pframeCopy
  dsimp only
  rw [a1, a2, b1, b2, show row * 16 * (16 * W) = 16 * row * (16 * W) from by ring,
    show row * 8 * (8 * W) = 8 * row * (8 * W) from by ring]
  by_cases hf : FitsCopy W H row (a + (m + 2))
  · have h1 := hy hf
    have h2 : ¬ copyRows (8 * row * (8 * W)) (8 * W) (8 * row * (8 * W)) (8 * W) ((a + 1) * 8) ((m + 2 - 1) * 8) s.cb (7 + 1) 0 d.cb = none :=
      fun h => (cb.1 h) hf
    have h3 : ¬ copyRows (8 * row * (8 * W)) (8 * W) (8 * row * (8 * W)) (8 * W) ((a + 1) * 8) ((m + 2 - 1) * 8) s.cr (7 + 1) 0 d.cr = none :=
      fun h => (cr.1 h) hf
    obtain ⟨p1, e1⟩ := Option.ne_none_iff_exists'.1 h1
    obtain ⟨p2, e2⟩ := Option.ne_none_iff_exists'.1 h2
    obtain ⟨p3, e4⟩ := Option.ne_none_iff_exists'.1 h3
    rw [e1, e2, e4]
    simp [hf]
  · have := cb.2 hf
    rw [this]
    simp only [hf, not_false_eq_true, iff_true]
    generalize copyRows (16 * row * (16 * W)) _ _ _ _ _ s.y 16 0 d.y = x
    cases x <;> rfl

/-! ### prediction -/

theorem mc_none (b : Block) (i row a : Nat) : ∃ c, motionCompensation b none none i row a = some c := by
  obtain ⟨r, h, -⟩ := optAll_some (n := 64) (f := fun k => mcPel none none i row a (k / 8) (k % 8)) (g := fun _ => 0)
    fun k _ => rfl
  unfold motionCompensation
  rw [h]
  exact ⟨_, rfl⟩

theorem finishBlock_none {e : PicEnv} {d : MVD} {b : Block} {i a row W H : Nat} {il : Bool} {f : Frame} (g : Geometry f W H)
    (hi : i < 6) (h1 : d.fwdRef e.past = none) (h2 : d.bwdRef e.future = none) :
    finishBlock e d b i a row il f = none ↔ ¬ FitsBlock W H row a il i := by
  obtain ⟨c, hc⟩ := mc_none b i row a
  unfold finishBlock
  rw [h1, h2, hc]
  exact updateFrame_none g hi

theorem finishBlock_sure {e : PicEnv} {d : MVD} {b : Block} {i a row W H : Nat} {il : Bool} {f : Frame} (g : Geometry f W H)
    (hi : i < 6) (h : ¬ FitsBlock W H row a il i) : finishBlock e d b i a row il f = none := by
  unfold finishBlock
  split
  · rfl
  · exact (updateFrame_none g hi).2 h

theorem finishBlock_geometry {e : PicEnv} {d : MVD} {b : Block} {i a row W H : Nat} {il : Bool} {f f' : Frame}
    (g : Geometry f W H) (h : finishBlock e d b i a row il f = some f') : Geometry f' W H := by
  unfold finishBlock at h
  split at h
  · cases h
  · exact updateFrame_geometry g h

theorem bcopyBlocks_geometry {e : PicEnv} {d : MVD} {a row W H : Nat} (k : Nat) : ∀ (f f' : Frame), Geometry f W H →
    bcopyBlocks e d a row k f = some f' → Geometry f' W H := by
  induction k with
  | zero => intro f f' g h; have h : some f = some f' := h; rw [← Option.some.inj h]; exact g
  | succ k ih =>
    intro f f' g h
    cases h1 : finishBlock e d Block.zero (5 - k) a row false f with
    | none => rw [bcopyBlocks_none h1] at h; exact absurd h.symm (Option.some_ne_none _)
    | some f1 => rw [bcopyBlocks_step h1] at h; exact ih _ _ (finishBlock_geometry g h1) h

theorem bframeCopy_geometry {e : PicEnv} {d : MVD} {row W H : Nat} (n : Nat) : ∀ (a : Nat) (f f' : Frame), Geometry f W H →
    bframeCopy e d row a n f = some f' → Geometry f' W H := by
  induction n with
  | zero => intro a f f' g h; have h : some f = some f' := h; rw [← Option.some.inj h]; exact g
  | succ n ih =>
    intro a f f' g h
    cases h1 : bcopyBlocks e d a row 6 f with
    | none => rw [bframeCopy_none h1] at h; exact absurd h.symm (Option.some_ne_none _)
    | some f1 => rw [bframeCopy_step h1] at h; exact ih _ _ _ (bcopyBlocks_geometry 6 _ _ g h1) h

theorem keep_geometry (e : PicEnv) (W H : Nat) : FrameKeep e (fun f => Geometry f W H) where
  pcopy := fun _ _ _ _ _ _ g h => pframeCopy_geometry g h
  bcopy := fun _ _ _ _ _ _ _ g h => bframeCopy_geometry _ _ _ _ g h
  block := fun _ _ _ _ _ _ _ _ _ g h => finishBlock_geometry g h

/-! ### zero vectors -/

theorem at_some {p : Plane} {k : Nat} (h : k < p.len) : p.at? (k : Int) = some (p.data k : Int) := by
  unfold Plane.at?
  rw [if_pos ⟨by omega, by omega⟩]
  rfl

/-- With a zero vector into a reference of the same size, prediction succeeds where the block fits. -/
theorem mc_zero {s : Frame} {W H row a i : Nat} {b : Block} (g : Geometry s W H) (hi : i < 6) (h : FitsBlock W H row a false i) :
    ∃ c, motionCompensation b (some (s, ⟨0, 0⟩)) none i row a = some c := by
  obtain ⟨g1, g2, g3, g4, g5⟩ := g
  have key : ∀ k, k < 64 → ∃ x, mcPel (some (s, ⟨0, 0⟩)) none i row a (k / 8) (k % 8) = some x := by
    intro k hk
    have hs : Vec.scaled ⟨0, 0⟩ i = ⟨0, 0⟩ := by unfold Vec.scaled; split <;> rfl
    have pl : ∀ (p : Plane) (st : Nat) (n : Nat), s.plane i = some (p, st) →
        (if i < 4 then (row * 16 + (i / 2 % 2) * 8) * st + a * 16 + (i % 2) * 8 else row * 8 * st + a * 8) = n →
        n + k / 8 * st + k % 8 < p.len → ∃ x, mcPel (some (s, ⟨0, 0⟩)) none i row a (k / 8) (k % 8) = some x := by
      intro p st n hp hn hl
      refine ⟨(p.data (n + k / 8 * st + k % 8) : Nat), ?_⟩
      rw [← at_some hl]
      unfold mcPel mcPredict mcIndex
      dsimp only
      rw [hp, hs]
      show p.at? _ = _
      dsimp only
      rw [hn]
      congr 1
      push_cast
      norm_num
    unfold FitsBlock at h
    by_cases h4 : i < 4
    · rw [if_pos h4] at h
      refine pl s.y s.yStride _ (by unfold Frame.plane; rw [if_pos h4]) (if_pos h4) ?_
      · rw [g1, g3]
        simp only [Bool.false_eq_true, if_false] at h
        have e2 : i / 2 % 2 = i / 2 := by omega
        rw [e2]
        have : k / 8 ≤ 7 := by omega
        have h7 : k / 8 * (16 * W) ≤ 7 * (16 * W) := Nat.mul_le_mul_right _ this
        have q1 : (16 * row + (8 * (i / 2) + 7)) * (16 * W) = (row * 16 + i / 2 * 8) * (16 * W) + 7 * (16 * W) := by ring
        have q2 : 16 * W * (16 * H) = 16 * H * (16 * W) := by ring
        omega
    · rw [if_neg h4] at h
      have bound : row * 8 * (8 * W) + a * 8 + k / 8 * (8 * W) + k % 8 < 8 * W * (8 * H) := by
        have : k / 8 ≤ 7 := by omega
        have h7 : k / 8 * (8 * W) ≤ 7 * (8 * W) := Nat.mul_le_mul_right _ this
        have q1 : (8 * row + 7) * (8 * W) = row * 8 * (8 * W) + 7 * (8 * W) := by ring
        have q2 : 8 * W * (8 * H) = 8 * H * (8 * W) := by ring
        omega
      by_cases h5 : i = 4
      · refine pl s.cb s.cStride _ (by unfold Frame.plane; rw [if_neg h4, if_pos h5]) (if_neg h4) ?_
        rw [g2, g4]; exact bound
      · refine pl s.cr s.cStride _ (by unfold Frame.plane; rw [if_neg h4, if_neg h5, if_pos (by omega)]) (if_neg h4) ?_
        rw [g2, g5]; exact bound
  have : ∀ k, ∃ x, k < 64 → mcPel (some (s, ⟨0, 0⟩)) none i row a (k / 8) (k % 8) = some x := by
    intro k
    by_cases hk : k < 64
    · obtain ⟨x, hx⟩ := key k hk; exact ⟨x, fun _ => hx⟩
    · exact ⟨0, fun h => absurd h hk⟩
  choose gg hg using this
  obtain ⟨r, hr, -⟩ := optAll_some (n := 64) (f := fun k => mcPel (some (s, ⟨0, 0⟩)) none i row a (k / 8) (k % 8)) (g := gg) hg
  unfold motionCompensation
  rw [hr]
  exact ⟨_, rfl⟩

end Mpeg.Video
