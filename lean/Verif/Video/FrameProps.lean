/-
C53, C54, C56: blocks land on their pixels, skipped macroblocks are copied, motion compensated prediction.
-/
import Verif.Video.FrameLemmas
import Verif.Video.MacroblockModel
namespace Mpeg.Video
open Spec

/-- Every 4:2:0 frame that the decoder creates has the geometry used below. -/
theorem C53_created (w h : Nat) : Geometry (createFrameBuffer w h 1) ((w + 15) / 16) ((h + 15) / 16) := by
  unfold createFrameBuffer
  simp only [true_or, ↓reduceIte, Plane.zero]
  refine ⟨Nat.mul_comm _ _, by dsimp only; omega, ?_, ?_, ?_⟩ <;> dsimp only
  · rw [Nat.mul_comm 16 ((w + 15) / 16), Nat.mul_comm 16 ((h + 15) / 16)]
  all_goals
    have e1 : (w + 15) / 16 * 16 / 2 = 8 * ((w + 15) / 16) := by omega
    have e2 : (h + 15) / 16 * 16 / 2 = 8 * ((h + 15) / 16) := by omega
    rw [e1, e2]

/-- C53: writing the six blocks of macroblock (row, addr) succeeds, changes exactly the pixels of that macroblock in
the three components, and gives each pixel the sample that the standard assigns to it. -/
theorem C53 {f : Frame} {W H row addr : Nat} (g : Geometry f W H) (hr : row < H) (ha : addr < W) (field : Bool)
    (s : Nat → Nat → Nat) :
    ∃ f', (do
        let f0 ← updateFrame 0 addr row field f (s 0)
        let f1 ← updateFrame 1 addr row field f0 (s 1)
        let f2 ← updateFrame 2 addr row field f1 (s 2)
        let f3 ← updateFrame 3 addr row field f2 (s 3)
        let f4 ← updateFrame 4 addr row field f3 (s 4)
        updateFrame 5 addr row field f4 (s 5)) = some f' ∧ Geometry f' W H ∧
      (∀ x y, x < 16 * W → pixY f' x y =
        if inMB 16 row addr x y then s (lumaBlock field (x % 16) (y % 16)) (lumaIndex field (x % 16) (y % 16))
        else pixY f x y) ∧
      (∀ x y, x < 8 * W → pixCb f' x y =
        if inMB 8 row addr x y then s 4 (8 * (y % 8) + x % 8) else pixCb f x y) ∧
      (∀ x y, x < 8 * W → pixCr f' x y =
        if inMB 8 row addr x y then s 5 (8 * (y % 8) + x % 8) else pixCr f x y) := by
  obtain ⟨f0, h0, g0, b0, r0, p0⟩ := updateFrame_luma (cb := s 0) (field := field) g hr ha (i := 0) (by omega)
  obtain ⟨f1, h1, g1, b1, r1, p1⟩ := updateFrame_luma (cb := s 1) (field := field) g0 hr ha (i := 1) (by omega)
  obtain ⟨f2, h2, g2, b2, r2, p2⟩ := updateFrame_luma (cb := s 2) (field := field) g1 hr ha (i := 2) (by omega)
  obtain ⟨f3, h3, g3, b3, r3, p3⟩ := updateFrame_luma (cb := s 3) (field := field) g2 hr ha (i := 3) (by omega)
  obtain ⟨f4, h4, g4, y4, r4, p4⟩ := updateFrame_cb (cb := s 4) (field := field) g3 hr ha
  obtain ⟨f5, h5, g5, y5, b5, p5⟩ := updateFrame_cr (cb := s 5) (field := field) g4 hr ha
  refine ⟨f5, ?_, g5, ?_, ?_, ?_⟩
  · simp only [h0, h1, h2, h3, h4, Option.bind_eq_bind, Option.bind_some]; exact h5
  · intro x y hx
    have e : pixY f5 x y = pixY f3 x y := by
      rw [pixY, pixY, y5, y4, g5.yStride, g3.yStride]
    rw [e, p3 x y hx, p2 x y hx, p1 x y hx, p0 x y hx]
    by_cases hm : inMB 16 row addr x y
    · simp only [hm, true_and, ↓reduceIte]
      have hb : lumaBlock field (x % 16) (y % 16) < 4 := by
        unfold lumaBlock; split <;> omega
      generalize lumaBlock field (x % 16) (y % 16) = k at *
      rcases Nat.lt_trichotomy k 1 with h | h | h
      · have : k = 0 := by omega
        subst this; rfl
      · subst h; rfl
      · rcases Nat.lt_trichotomy k 2 with h | h | h
        · omega
        · subst h; rfl
        · have : k = 3 := by omega
          subst this; rfl
    · simp only [hm, false_and, ↓reduceIte]
  · intro x y hx
    have e : pixCb f5 x y = pixCb f4 x y := by rw [pixCb, pixCb, b5, g5.cStride, g4.cStride]
    have e' : pixCb f3 x y = pixCb f x y := by rw [pixCb, pixCb, b3, b2, b1, b0, g3.cStride, g.cStride]
    rw [e, p4 x y hx, e']
  · intro x y hx
    have e' : pixCr f4 x y = pixCr f x y := by rw [pixCr, pixCr, r4, r3, r2, r1, r0, g4.cStride, g.cStride]
    rw [p5 x y hx, e']

/-- A 2 × 2 macroblock frame; macroblock (1, 0) with field DCT; line 19 is the second line of the odd field. -/
example : (match (do
    let f0 ← updateFrame 0 0 1 true (createFrameBuffer 20 32 1) (fun k => k)
    updateFrame 2 0 1 true f0 (fun k => 100 + k)) with
    | some f => [pixY f 3 16, pixY f 3 19, pixY f 7 31, pixY f 8 19, pixY f 3 15]
    | none => []) = [3, 111, 163, 0, 0] := by decide +kernel

/-- The address is not checked against the width: a macroblock at address `W` does not fail, it overwrites pixels of
macroblock 0 (here line 1 of a frame that is one macroblock wide). -/
theorem C53_address_unchecked :
    (match updateFrame 0 1 0 false (createFrameBuffer 16 32 1) (fun _ => 7) with
      | some f => pixY f 0 1 == 7
      | none => false) = true := by decide +kernel

/-- C54: copying `n` macroblocks of a row from the reference succeeds and changes exactly the pixels of those
macroblocks, which become those of the reference. -/
theorem C54 {d s : Frame} {W H row col n : Nat} (gd : Geometry d W H) (gs : Geometry s W H) (hr : row < H)
    (hn : col + n ≤ W) :
    ∃ d', pframeCopy row col n d (some s) = some d' ∧ Geometry d' W H ∧
      (∀ x y, x < 16 * W → pixY d' x y = if inRun 16 row col n x y then pixY s x y else pixY d x y) ∧
      (∀ x y, x < 8 * W → pixCb d' x y = if inRun 8 row col n x y then pixCb s x y else pixCb d x y) ∧
      (∀ x y, x < 8 * W → pixCr d' x y = if inRun 8 row col n x y then pixCr s x y else pixCr d x y) := by
  obtain ⟨a1, a2, a3, a4, a5⟩ := gd
  obtain ⟨b1, b2, b3, b4, b5⟩ := gs
  obtain ⟨yp, hy, ly, dy⟩ := copyRows_pix (S := 16 * W) (R := 16 * H) (X := col * 16) (n := n * 16) (Y0 := 16 * row)
    (s := s.y) (by omega) b3 16 0 d.y a3 (by omega)
  obtain ⟨cb, hcb, lcb, dcb⟩ := copyRows_pix (S := 8 * W) (R := 8 * H) (X := col * 8) (n := n * 8) (Y0 := 8 * row)
    (s := s.cb) (by omega) b4 8 0 d.cb a4 (by omega)
  obtain ⟨cr, hcr, lcr, dcr⟩ := copyRows_pix (S := 8 * W) (R := 8 * H) (X := col * 8) (n := n * 8) (Y0 := 8 * row)
    (s := s.cr) (by omega) b5 8 0 d.cr a5 (by omega)
  refine ⟨{ d with y := yp, cb := cb, cr := cr }, ?_, ⟨a1, a2, ly.trans a3, lcb.trans a4, lcr.trans a5⟩, ?_, ?_, ?_⟩
  · simp only [pframeCopy]
    rw [a1, a2, b1, b2, Nat.mul_comm row 16, Nat.mul_comm row 8, hy, hcb, hcr]
  · intro x y hx
    show yp.data (y * d.yStride + x) = _
    rw [pixY, pixY, a1, b1, dy x y hx]
    by_cases h : inRun 16 row col n x y
    · rw [if_pos h]; unfold inRun at h; rw [if_pos (by omega)]
    · rw [if_neg h]; unfold inRun at h; rw [if_neg (by omega)]
  · intro x y hx
    show cb.data (y * d.cStride + x) = _
    rw [pixCb, pixCb, a2, b2, dcb x y hx]
    by_cases h : inRun 8 row col n x y
    · rw [if_pos h]; unfold inRun at h; rw [if_pos (by omega)]
    · rw [if_neg h]; unfold inRun at h; rw [if_neg (by omega)]
  · intro x y hx
    show cr.data (y * d.cStride + x) = _
    rw [pixCr, pixCr, a2, b2, dcr x y hx]
    by_cases h : inRun 8 row col n x y
    · rw [if_pos h]; unfold inRun at h; rw [if_pos (by omega)]
    · rw [if_neg h]; unfold inRun at h; rw [if_neg (by omega)]

/-- C54 in the decoder: after macroblock `a`, an address increment of `incr > 1` in a P picture copies the skipped
macroblocks `a + 1 .. a + incr - 1` from the forward reference and changes nothing else of the slice state. -/
theorem C54_skip {e : PicEnv} {s : MB} {src : Frame} {W H row a incr : Nat} (hp : e.ph.pictureCodingType = pFrame)
    (hpast : e.past = some src) (gd : Geometry s.frame W H) (gs : Geometry src W H) (hr : row < H)
    (hi : 1 < incr) (hn : a + incr ≤ W) :
    ∃ d', copySkipped e row (some a) incr s = (.ok (), { s with frame := d' }) ∧ Geometry d' W H ∧
      (∀ x y, x < 16 * W → pixY d' x y =
        if inRun 16 row (a + 1) (incr - 1) x y then pixY src x y else pixY s.frame x y) ∧
      (∀ x y, x < 8 * W → pixCb d' x y =
        if inRun 8 row (a + 1) (incr - 1) x y then pixCb src x y else pixCb s.frame x y) ∧
      (∀ x y, x < 8 * W → pixCr d' x y =
        if inRun 8 row (a + 1) (incr - 1) x y then pixCr src x y else pixCr s.frame x y) := by
  obtain ⟨d', h, rest⟩ := C54 (col := a + 1) (n := incr - 1) gd gs hr (by omega)
  refine ⟨d', ?_, rest⟩
  simp only [copySkipped, hi, hp, hpast, h, ↓reduceIte]
  rfl

/-- A skipped macroblock of a P picture without a reference frame is a nil dereference. -/
theorem C54_no_reference {e : PicEnv} {s : MB} {row a incr : Nat} (hp : e.ph.pictureCodingType = pFrame)
    (hpast : e.past = none) (hi : 1 < incr) : (copySkipped e row (some a) incr s).1 = .panic := by
  simp only [copySkipped, hi, hp, hpast, ↓reduceIte, pframeCopy]
  rfl

/-- A copy of two macroblocks in a row of three. -/
example : (match pframeCopy 0 1 2 (createFrameBuffer 48 16 1)
      (some { createFrameBuffer 48 16 1 with y := ⟨768, fun i => i % 251⟩ }) with
    | some f => [pixY f 15 3, pixY f 16 3, pixY f 47 15]
    | none => []) = [0, 160, (15 * 48 + 47) % 251] := by decide +kernel

/-! ### motion compensation -/

/-- C56, one reference: each sample of a block whose displaced position lies inside the reference gets the displaced
sample, or the mean of the 2 or 4 samples around the half sample position, added. -/
theorem C56 {f : Frame} {W H i row addr : Nat} (g : Geometry f W H) (hi : i < 6) (m : Vec) (b : Block)
    (hX : inside (blockX i addr) 8 (compSize i W) (blockVec i m.h))
    (hY : inside (blockY i row) 8 (compSize i H) (blockVec i m.v)) :
    (∃ c, motionCompensation b (some (f, m)) none i row addr = some c ∧
      ∀ u v, u < 8 → v < 8 → c (8 * v + u) = b (8 * v + u) + predict f i row addr m.h m.v u v) ∧
    (∃ c, motionCompensation b none (some (f, m)) i row addr = some c ∧
      ∀ u v, u < 8 → v < 8 → c (8 * v + u) = b (8 * v + u) + predict f i row addr m.h m.v u v) := by
  have key : ∀ k, k < 64 → mcPredict f i row addr m (k / 8) (k % 8) =
      some (predict f i row addr m.h m.v (k % 8) (k / 8) : Int) := fun k hk =>
    predict_pix g hi m (by omega) (by omega) hX hY
  obtain ⟨r, hr, hk⟩ := optAll_some (f := fun k => mcPredict f i row addr m (k / 8) (k % 8)) key
  have fin : ∀ u v, u < 8 → v < 8 → b (8 * v + u) + r (8 * v + u) =
      b (8 * v + u) + predict f i row addr m.h m.v u v := by
    intro u v hu hv
    rw [hk (8 * v + u) (by omega)]
    have e1 : (8 * v + u) % 8 = u := by omega
    have e2 : (8 * v + u) / 8 = v := by omega
    rw [e1, e2]
  refine ⟨⟨fun k => b k + r k, ?_, fin⟩, ⟨fun k => b k + r k, ?_, fin⟩⟩
  · simp only [motionCompensation, mcPel]; rw [hr]; rfl
  · simp only [motionCompensation, mcPel]; rw [hr]; rfl

/-- C56, two references: the (floor) mean of both predictions. -/
theorem C56_two {f b' : Frame} {W H i row addr : Nat} (gf : Geometry f W H) (gb : Geometry b' W H) (hi : i < 6)
    (m n : Vec) (b : Block)
    (hX : inside (blockX i addr) 8 (compSize i W) (blockVec i m.h))
    (hY : inside (blockY i row) 8 (compSize i H) (blockVec i m.v))
    (hX' : inside (blockX i addr) 8 (compSize i W) (blockVec i n.h))
    (hY' : inside (blockY i row) 8 (compSize i H) (blockVec i n.v)) :
    ∃ c, motionCompensation b (some (f, m)) (some (b', n)) i row addr = some c ∧
      ∀ u v, u < 8 → v < 8 → c (8 * v + u) = b (8 * v + u) +
        ((predict f i row addr m.h m.v u v + predict b' i row addr n.h n.v u v) / 2 : Nat) := by
  have key : ∀ k, k < 64 → mcPel (some (f, m)) (some (b', n)) i row addr (k / 8) (k % 8) =
      some (((predict f i row addr m.h m.v (k % 8) (k / 8) + predict b' i row addr n.h n.v (k % 8) (k / 8)) / 2
        : Nat) : Int) := by
    intro k hk
    simp only [mcPel]
    rw [predict_pix gf hi m (by omega) (by omega) hX hY, predict_pix gb hi n (by omega) (by omega) hX' hY']
    simp only [Option.bind_eq_bind, Option.bind_some, Option.pure_def, Option.some.injEq]
    omega
  obtain ⟨r, hr, hk⟩ := optAll_some key
  refine ⟨fun k => b k + r k, ?_, ?_⟩
  · simp only [motionCompensation]; rw [hr]; rfl
  · intro u v hu hv
    show b (8 * v + u) + r (8 * v + u) = _
    rw [hk (8 * v + u) (by omega)]
    have e1 : (8 * v + u) % 8 = u := by omega
    have e2 : (8 * v + u) / 8 = v := by omega
    rw [e1, e2]

/-- C56, no reference: the block is unchanged. -/
theorem C56_none (i row addr : Nat) (b : Block) :
    ∃ c, motionCompensation b none none i row addr = some c ∧ ∀ k, k < 64 → c k = b k := by
  obtain ⟨r, hr, hk⟩ := optAll_some (n := 64) (f := fun _ => some (0 : Int)) (g := fun _ => 0) (fun _ _ => rfl)
  refine ⟨fun k => b k + r k, ?_, fun k h => ?_⟩
  · simp only [motionCompensation, mcPel]; rw [hr]; rfl
  · show b k + r k = b k
    rw [hk k h]; omega

/-- C56, reads: if the luma vector keeps the whole macroblock inside the reference, as the standard requires, the
predictions of all six blocks exist: every sample read lies inside the reference. -/
theorem C56_inside {W H row addr : Nat} {m : Vec} (hX : inside (16 * addr) 16 (16 * W) m.h)
    (hY : inside (16 * row) 16 (16 * H) m.v) (i : Nat) :
    inside (blockX i addr) 8 (compSize i W) (blockVec i m.h) ∧
    inside (blockY i row) 8 (compSize i H) (blockVec i m.v) := by
  unfold inside at *
  unfold blockX blockY compSize blockVec
  by_cases h : i < 4
  · simp only [h, ↓reduceIte]; omega
  · simp only [h, ↓reduceIte]; omega

/-- C56, range: whatever the vectors are, a prediction that is formed is a number 0..255. -/
theorem C56_range {fwd bwd : Option (Frame × Vec)} {i row addr u v : Nat} {p : Int}
    (hf : ∀ x, fwd = some x → Bytes x.1) (hb : ∀ x, bwd = some x → Bytes x.1)
    (h : mcPel fwd bwd i row addr v u = some p) : 0 ≤ p ∧ p ≤ 255 := by
  cases fwd with
  | none =>
    cases bwd with
    | none => cases h; omega
    | some b => exact predict_range (hb b rfl) h
  | some f =>
    cases bwd with
    | none => exact predict_range (hf f rfl) h
    | some b =>
      simp only [mcPel, Option.bind_eq_bind, Option.pure_def] at h
      obtain ⟨x, hx, h⟩ := Option.bind_eq_some_iff.1 h
      obtain ⟨y, hy, h⟩ := Option.bind_eq_some_iff.1 h
      have := predict_range (hf f rfl) hx
      have := predict_range (hb b rfl) hy
      cases h
      omega

/-- C56 holds with the floor mean, not with the rounding of ISO 13818-2 7.6.4: for the samples 1 and 2 the standard
predicts 2 and the decoder 1. -/
theorem C56_iso_false :
    let f : Frame := { createFrameBuffer 32 16 1 with y := ⟨512, fun i => i % 32 % 3⟩ }
    (mcPredict f 0 0 0 ⟨1, 0⟩ 0 1, isoInterpolate (pix f 0) 1 0 true false) = (some 1, 2) := by decide +kernel

/-- The chroma vector is halved downwards; ISO 13818-2 7.6.3.7 divides towards zero: for the luma component -1 the
standard gives 0, the decoder -1. -/
theorem C56_chroma_iso_false : (Vec.scaled ⟨-1, -1⟩ 4, Int.tdiv (-1) 2) = (⟨-1, -1⟩, 0) := by decide +kernel

/-- A vector that leaves the reference to the left is not rejected: it reads the end of the line above. -/
theorem C56_left_unchecked :
    let f : Frame := { createFrameBuffer 16 32 1 with y := ⟨512, fun i => i % 16⟩ }
    mcPredict f 0 1 0 ⟨-2, 0⟩ 0 0 = some 15 := by decide +kernel

/-- A half sample vector in a 2 × 2 frame, block 3 of macroblock (1, 0), meets the hypotheses of `C56`. -/
example : inside (blockX 3 0) 8 (compSize 3 2) (blockVec 3 (-15)) ∧
    inside (blockY 3 1) 8 (compSize 3 2) (blockVec 3 (-33)) ∧
    inside (blockX 5 0) 8 (compSize 5 2) (blockVec 5 17) := by
  unfold inside; decide +kernel

end Mpeg.Video
