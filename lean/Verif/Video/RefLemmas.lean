/-
The decoder refines the reference decoder: blocks and their placement.
-/
import Verif.Video.MbLemmas2
import Verif.Video.RefSpec
namespace Mpeg.Video
open Spec

variable {stop : Err} {later : List (List Bool × Err)}

/-! ### residuals -/

theorem scanAt_pos (alt i : Nat) (hi : i < 64) : scanAt alt i = scanPos alt i := by
  have k0 : ∀ i < 64, scanAt 0 i = scanPos 0 i := by decide +kernel
  have k1 : ∀ i < 64, scanAt 1 i = scanPos 1 i := by decide +kernel
  by_cases h : alt = 0
  · subst h; exact k0 i hi
  · have e1 : scanAt alt i = scanAt 1 i := by unfold scanAt; rw [if_neg h, if_neg (by omega)]
    have e2 : scanPos alt i = scanPos 1 i := by unfold scanPos; rw [if_neg h, if_neg (by omega)]
    rw [e1, e2, k1 i hi]

theorem idctRow_congr {s s' : Nat → Int} (h : ∀ u, u < 8 → s u = s' u) : idctRow s = idctRow s' := by
  have h0 := h 0 (by omega)
  have h1 := h 1 (by omega)
  have h2 := h 2 (by omega)
  have h3 := h 3 (by omega)
  have h4 := h 4 (by omega)
  have h5 := h 5 (by omega)
  have h6 := h 6 (by omega)
  have h7 := h 7 (by omega)
  unfold idctRow
  simp only [h0, h1, h2, h3, h4, h5, h6, h7]

theorem idctCol_congr {s s' : Nat → Int} (h : ∀ u, u < 8 → s u = s' u) : idctCol s = idctCol s' := by
  have h0 := h 0 (by omega)
  have h1 := h 1 (by omega)
  have h2 := h 2 (by omega)
  have h3 := h 3 (by omega)
  have h4 := h 4 (by omega)
  have h5 := h 5 (by omega)
  have h6 := h 6 (by omega)
  have h7 := h 7 (by omega)
  unfold idctCol
  simp only [h0, h1, h2, h3, h4, h5, h6, h7]

theorem idct_congr {b b' : Block} (h : ∀ i, i < 64 → b i = b' i) (k : Nat) (hk : k < 64) : idct b k = idct b' k := by
  have hr : ∀ i, i < 64 → idctRows b i = idctRows b' i := by
    intro i hi
    unfold idctRows
    rw [idctRow_congr (s := fun u => b (8 * (i / 8) + u)) (s' := fun u => b' (8 * (i / 8) + u))]
    intro u hu; exact h _ (by omega)
  show idctCol (fun v => idctRows b (8 * v + k % 8)) (k / 8) = idctCol (fun v => idctRows b' (8 * v + k % 8)) (k / 8)
  rw [idctCol_congr (s := fun v => idctRows b (8 * v + k % 8)) (s' := fun v => idctRows b' (8 * v + k % 8))]
  intro v hv; exact hr _ (by omega)

theorem decodeBlock_coefficients {e : PicEnv} {qsc i : Nat} {intra : Bool} {qf : List Int} {out : Block}
    (hc : e.se.chromaFormat = 1) (hq : qsc < 32) (hp : e.pce.intraDCPrecision < 4)
    (hm : ∀ x ∈ (if intra then e.qm.m0 else e.qm.m1 : Matrix), x < 256)
    (hout : ∀ k, k < 64 → out k = qf.getD k 0)
    (hac : ∀ k, (intra = true → k ≠ 0) → -2048 ≤ out k ∧ out k ≤ 2047)
    (hdc : intra = true → -2 ^ 28 ≤ out 0 ∧ out 0 < 2 ^ 28) (k : Nat) (hk : k < 64) :
    decodeBlock (blockParams e qsc i intra) out k = (coefficients e qsc intra qf).getD k 0 := by
  have hmat : (blockParams e qsc i intra).matrix = if intra then e.qm.m0 else e.qm.m1 := by
    unfold QParams.matrix blockParams
    simp only [hc, or_true, ↓reduceIte]
  have h := C49_partial (blockParams e qsc i intra) out hq hp (by rw [hmat]; exact hm)
    (fun j h0 _ => hac j (fun _ => by omega)) (by
      show if intra = true then _ else _
      split
      · rename_i h; exact hdc h
      · rename_i h; exact hac 0 (fun h' => absurd h' h))
  rw [hmat] at h
  have hs : (List.range 64).map (fun i_1 => out (scanAt (blockParams e qsc i intra).alternateScan i_1)) =
      (List.range 64).map fun i => qf.getD (scanPos e.pce.alternateScan i) 0 := by
    apply List.map_congr_left
    intro j hj
    rw [List.mem_range] at hj
    show out (scanAt e.pce.alternateScan j) = _
    rw [hout _ ((C48 e.pce.alternateScan).1 j hj), scanAt_pos _ _ hj]
  rw [hs] at h
  have h' := congrArg (fun l => l.getD k 0) h
  have e1 : ((List.range 64).map (decodeBlock (blockParams e qsc i intra) out)).getD k 0 =
      decodeBlock (blockParams e qsc i intra) out k := by
    simp [List.getD_eq_getElem?_getD, hk]
  rw [e1] at h'
  exact h'

/-! ### reading a block -/

theorem block_run {intra : Bool} {format cc : Nat} {p : DcPred} {qf : List Int} {bits : List Bool}
    (h : BlockCode intra format cc (p.get cc) qf bits) (b : Block) (r : List Bool) (pos : Nat) :
    ∃ out, readBlock b p format cc intra ⟨bits ++ r, pos, stop, later⟩ =
        (.ok (out, if intra then p.set cc (qf.getD 0 0) else p), ⟨r, pos + bits.length, stop, later⟩) ∧
      ∀ k, k < 64 → out k = qf.getD k 0 := by
  cases h with
  | nonintra evs bits c hi hev hc he hl =>
    subst hi
    obtain ⟨out, h1, h2⟩ := C46_nonintra (stop := stop) (later := later) evs bits c hev hc he hl b p format cc r pos
    exact ⟨out, by simpa using h1, h2⟩
  | intra d cd evs bits c hi hd hcd hc he hl =>
    subst hi
    obtain ⟨out, h1, h2⟩ := C46_intra (stop := stop) (later := later) d cc p hd cd hcd format evs bits c hc he hl b r pos
    exact ⟨out, by simpa using h1, h2⟩

theorem blockCode_nonintra {format cc : Nat} {p : Int} {qf : List Int} {bits : List Bool}
    (h : BlockCode false format cc p qf bits) (p' : Int) : BlockCode false format cc p' qf bits := by
  cases h with
  | nonintra evs bits c hi hev hc he hl => exact .nonintra evs bits c hi hev hc he hl
  | intra d cd evs bits c hi hd hcd hc he hl => cases hi

theorem blockComp_eq {i : Nat} (hi : i < 6) : colorChannel i = blockComp i ∧ blockComp i < 3 := by
  have : ∀ i < 6, colorChannel i = blockComp i ∧ blockComp i < 3 := by decide
  exact this i hi

theorem dcp_set (p : DcPred) (c : Nat) (v : Int) (hc : c < 3) (c' : Nat) (hc' : c' < 3) :
    (p.set c v).get c' = if c' = c then v else p.get c' := by
  have h1 : c = 0 ∨ c = 1 ∨ c = 2 := by omega
  have h2 : c' = 0 ∨ c' = 1 ∨ c' = 2 := by omega
  rcases h1 with rfl | rfl | rfl <;> rcases h2 with rfl | rfl | rfl <;> rfl

theorem mbBlock_run {e : PicEnv} {m : MbData} {i : Nat} (hi : i < 6) {s : MB} {dc : Nat → Int} {bits : List Bool}
    (hc : e.se.chromaFormat = 1) (hq : s.qsc < 32) (hp : e.pce.intraDCPrecision < 4)
    (hm : ∀ x ∈ (if m.type.intra then e.qm.m0 else e.qm.m1 : Matrix), x < 256)
    (hdc : m.type.intra = true → -2 ^ 28 ≤ (m.qf i).getD 0 0 ∧ (m.qf i).getD 0 0 < 2 ^ 28)
    (hrel : ∀ c, c < 3 → s.dcp.get c = dc c)
    (hcod : m.coded i = true →
      BlockCode m.type.intra e.pce.intraVLCFormat (blockComp i) (dc (blockComp i)) (m.qf i) bits)
    (hunc : m.coded i = false → bits = []) (b : Block) (r : List Bool) (pos : Nat)
    (hbr : s.br = ⟨bits ++ r, pos, stop, later⟩) :
    ∃ b' dcp', mbBlock e m.type.intra (m.coded i) i b s =
        (.ok b', { s with br := ⟨r, pos + bits.length, stop, later⟩, dcp := dcp' }) ∧
      (∀ k, k < 64 → b' k = m.residual e s.qsc i k) ∧
      ∀ c, c < 3 → dcp'.get c = if m.type.intra = true ∧ c = blockComp i then (m.qf i).getD 0 0 else dc c := by
  obtain ⟨hcc, hc3⟩ := blockComp_eq hi
  cases hcd : m.coded i with
  | false =>
    have hb := hunc hcd
    subst hb
    have hint : m.type.intra = false := by
      cases h : m.type.intra
      · rfl
      · unfold MbData.coded at hcd; rw [h] at hcd; simp at hcd
    refine ⟨Block.zero, s.dcp, ?_, ?_, ?_⟩
    · simp only [mbBlock, Bool.false_eq_true, ↓reduceIte, List.length_nil, Nat.add_zero]
      rw [List.nil_append] at hbr
      rw [← hbr]
    · intro k _; unfold MbData.residual; rw [hcd]; simp [Block.zero]
    · intro c hc'; rw [if_neg (by simp [hint]), hrel c hc']
  | true =>
    have hb := hcod hcd
    rw [← hrel _ hc3, ← hcc] at hb
    obtain ⟨out, h1, h2⟩ := block_run (stop := stop) (later := later) hb b r pos
    refine ⟨idct (decodeBlock (blockParams e s.qsc i m.type.intra) out),
      if m.type.intra = true then s.dcp.set (colorChannel i) ((m.qf i).getD 0 0) else s.dcp, ?_, ?_, ?_⟩
    · simp only [mbBlock, ↓reduceIte]
      rw [hbr, h1]
    · intro k hk
      unfold MbData.residual
      rw [hcd, if_pos rfl]
      refine idct_congr (fun j hj => ?_) k hk
      refine decodeBlock_coefficients hc hq hp hm h2 (fun k hk => ?_) (fun h => ?_) j hj
      · exact C49_levels _ _ _ _ _ _ _ _ _ h1 k hk
      · rw [h2 0 (by omega)]; exact hdc h
    · intro c hc'
      cases hint : m.type.intra with
      | true =>
        simp only [↓reduceIte, true_and]
        rw [hcc, dcp_set _ _ _ hc3 _ hc', hrel c hc']
      | false =>
        simp only [Bool.false_eq_true, ↓reduceIte, false_and]
        exact hrel c hc'

/-! ### placement -/

/-- Block `i` of macroblock (row, addr) with samples `s` is placed in a frame: exactly its pixels change. -/
structure Placed (W H row addr : Nat) (field : Bool) (i : Nat) (s : Nat → Nat) (f f' : Frame) : Prop where
  geo : Geometry f' W H
  pix : ∀ c x y, c < 3 → x < side c * W → sampleOf f' c x y =
    if inMB (side c) row addr x y ∧ blockAt field c x y = i then s (indexAt field c x y) else sampleOf f c x y

theorem three {c : Nat} (h : c < 3) : c = 0 ∨ c = 1 ∨ c = 2 := by omega

theorem updateFrame_placed {f : Frame} {W H row addr i : Nat} {field : Bool} {s : Nat → Nat} (g : Geometry f W H)
    (hr : row < H) (ha : addr < W) (hi : i < 6) :
    ∃ f', updateFrame i addr row field f s = some f' ∧ Placed W H row addr field i s f f' := by
  rcases (show i < 4 ∨ i = 4 ∨ i = 5 by omega) with h | rfl | rfl
  · obtain ⟨f', h1, h2, h3, h4, h5⟩ := updateFrame_luma (cb := s) (field := field) g hr ha h
    refine ⟨f', h1, h2, fun c x y hc hx => ?_⟩
    rcases three hc with rfl | rfl | rfl
    · exact h5 x y hx
    · rw [if_neg (by simp [blockAt]; omega)]
      show pixCb f' x y = pixCb f x y
      rw [pixCb, pixCb, h3, h2.cStride, g.cStride]
    · rw [if_neg (by simp [blockAt]; omega)]
      show pixCr f' x y = pixCr f x y
      rw [pixCr, pixCr, h4, h2.cStride, g.cStride]
  · obtain ⟨f', h1, h2, h3, h4, h5⟩ := updateFrame_cb (cb := s) (field := field) g hr ha
    refine ⟨f', h1, h2, fun c x y hc hx => ?_⟩
    rcases three hc with rfl | rfl | rfl
    · have hb : blockAt field 0 x y < 4 := by unfold blockAt lumaBlock; simp only [↓reduceIte]; split <;> omega
      rw [if_neg (by omega)]
      show pixY f' x y = pixY f x y
      rw [pixY, pixY, h3, h2.yStride, g.yStride]
    · rw [show sampleOf f' 1 x y = pixCb f' x y from rfl, h5 x y hx]
      simp only [blockAt, indexAt, side, Nat.one_ne_zero, ↓reduceIte, and_true]
      rfl
    · rw [if_neg (by simp [blockAt])]
      show pixCr f' x y = pixCr f x y
      rw [pixCr, pixCr, h4, h2.cStride, g.cStride]
  · obtain ⟨f', h1, h2, h3, h4, h5⟩ := updateFrame_cr (cb := s) (field := field) g hr ha
    refine ⟨f', h1, h2, fun c x y hc hx => ?_⟩
    rcases three hc with rfl | rfl | rfl
    · have hb : blockAt field 0 x y < 4 := by unfold blockAt lumaBlock; simp only [↓reduceIte]; split <;> omega
      rw [if_neg (by omega)]
      show pixY f' x y = pixY f x y
      rw [pixY, pixY, h3, h2.yStride, g.yStride]
    · rw [if_neg (by simp [blockAt])]
      show pixCb f' x y = pixCb f x y
      rw [pixCb, pixCb, h4, h2.cStride, g.cStride]
    · rw [show sampleOf f' 2 x y = pixCr f' x y from rfl, h5 x y hx]
      have h2' : ¬ (2 = 0) := by omega
      simp only [blockAt, indexAt, side, h2', ↓reduceIte, and_true]
      rfl

/-! ### prediction of a block -/

/-- A reference in use lies inside for macroblock (row, addr). -/
def RefOK (W H row addr : Nat) (ref : Option (Frame × Vec)) : Prop :=
  ∀ f m, ref = some (f, m) → Geometry f W H ∧ inside (16 * addr) 16 (16 * W) m.h ∧ inside (16 * row) 16 (16 * H) m.v

/-- The prediction of sample (u, v) of block `i`. -/
def blockPred (fwd bwd : Option (Frame × Vec)) (i row addr u v : Nat) : Nat :=
  blend (fwd.map fun x => predict x.1 i row addr x.2.h x.2.v u v) (bwd.map fun x => predict x.1 i row addr x.2.h x.2.v u v)

theorem mc_run {W H i row addr : Nat} {fwd bwd : Option (Frame × Vec)} (hi : i < 6) (hf : RefOK W H row addr fwd)
    (hb : RefOK W H row addr bwd) (b : Block) :
    ∃ c, motionCompensation b fwd bwd i row addr = some c ∧
      ∀ k, k < 64 → c k = b k + blockPred fwd bwd i row addr (k % 8) (k / 8) := by
  have hk : ∀ k : Nat, 8 * (k / 8) + k % 8 = k := fun k => by omega
  cases fwd with
  | none =>
    cases bwd with
    | none =>
      obtain ⟨c, h1, h2⟩ := C56_none i row addr b
      exact ⟨c, h1, fun k hk' => by rw [h2 k hk']; simp [blockPred, blend]⟩
    | some y =>
      obtain ⟨g, m⟩ := y
      obtain ⟨g1, g2, g3⟩ := hb g m rfl
      obtain ⟨i1, i2⟩ := C56_inside g2 g3 i
      obtain ⟨c, h1, h2⟩ := (C56 g1 hi m b i1 i2).2
      refine ⟨c, h1, fun k hk' => ?_⟩
      have := h2 (k % 8) (k / 8) (by omega) (by omega)
      rw [hk k] at this
      exact this
  | some x =>
    obtain ⟨f, n⟩ := x
    obtain ⟨f1, f2, f3⟩ := hf f n rfl
    obtain ⟨j1, j2⟩ := C56_inside f2 f3 i
    cases bwd with
    | none =>
      obtain ⟨c, h1, h2⟩ := (C56 f1 hi n b j1 j2).1
      refine ⟨c, h1, fun k hk' => ?_⟩
      have := h2 (k % 8) (k / 8) (by omega) (by omega)
      rw [hk k] at this
      exact this
    | some y =>
      obtain ⟨g, m⟩ := y
      obtain ⟨g1, g2, g3⟩ := hb g m rfl
      obtain ⟨i1, i2⟩ := C56_inside g2 g3 i
      obtain ⟨c, h1, h2⟩ := C56_two f1 g1 hi n m b j1 j2 i1 i2
      refine ⟨c, h1, fun k hk' => ?_⟩
      have := h2 (k % 8) (k / 8) (by omega) (by omega)
      rw [hk k] at this
      exact this

theorem finishBlock_run {e : PicEnv} {d : MVD} {f : Frame} {W H row addr i : Nat} {field : Bool} (g : Geometry f W H)
    (hr : row < H) (ha : addr < W) (hi : i < 6) (hf : RefOK W H row addr (d.fwdRef e.past))
    (hb : RefOK W H row addr (d.bwdRef e.future)) (b : Block) :
    ∃ f' s, finishBlock e d b i addr row field f = some f' ∧ Placed W H row addr field i s f f' ∧
      ∀ k, k < 64 → s k = clamp8 (b k + blockPred (d.fwdRef e.past) (d.bwdRef e.future) i row addr (k % 8) (k / 8)) := by
  obtain ⟨c, h1, h2⟩ := mc_run hi hf hb b
  obtain ⟨f', h3, h4⟩ := updateFrame_placed (s := c.clamp) (field := field) g hr ha hi
  refine ⟨f', c.clamp, ?_, h4, fun k hk => ?_⟩
  · unfold finishBlock; rw [h1]; exact h3
  · show clamp8 (c k) = _
    rw [h2 k hk]

theorem indexAt_lt (field : Bool) {c : Nat} (x y : Nat) : indexAt field c x y < 64 := by
  unfold indexAt lumaIndex
  split
  · split <;> omega
  · omega

theorem blockAt_lt (field : Bool) {c : Nat} (hc : c < 3) (x y : Nat) : blockAt field c x y < 6 := by
  unfold blockAt lumaBlock
  split
  · split <;> omega
  · omega

/-! ### the block loop -/

/-- The pixels after blocks `i` to `j - 1`. -/
structure PlacedAll (W H row addr : Nat) (field : Bool) (i j : Nat) (s : Nat → Nat → Nat) (f f' : Frame) : Prop where
  geo : Geometry f' W H
  pix : ∀ c x y, c < 3 → x < side c * W → sampleOf f' c x y =
    if inMB (side c) row addr x y ∧ i ≤ blockAt field c x y ∧ blockAt field c x y < j
    then s (blockAt field c x y) (indexAt field c x y) else sampleOf f c x y

theorem mbBlocks_run {e : PicEnv} {m : MbData} {dc0 : Nat → Int} {W H row addr qsc : Nat} {d : MVD}
    (hr : row < H) (ha : addr < W) (hc : e.se.chromaFormat = 1) (hq : qsc < 32) (hp : e.pce.intraDCPrecision < 4)
    (hm : ∀ x ∈ (if m.type.intra then e.qm.m0 else e.qm.m1 : Matrix), x < 256)
    (hdc : ∀ i, i < 6 → m.type.intra = true → -2 ^ 28 ≤ (m.qf i).getD 0 0 ∧ (m.qf i).getD 0 0 < 2 ^ 28)
    (blocks : Nat → List Bool) (field : Bool)
    (hcod : ∀ i, i < 6 → m.coded i = true →
      BlockCode m.type.intra e.pce.intraVLCFormat (blockComp i) (m.dcBefore dc0 i (blockComp i)) (m.qf i) (blocks i))
    (hunc : ∀ i, i < 6 → m.coded i = false → blocks i = [])
    (hf : RefOK W H row addr (d.fwdRef e.past)) (hb : RefOK W H row addr (d.bwdRef e.future)) (r : List Bool) :
    ∀ k i (s : MB) (b : Block) (pos : Nat), i + k = 6 → s.mvd = d → s.qsc = qsc → Geometry s.frame W H →
      (∀ c, c < 3 → s.dcp.get c = (if m.type.intra then m.dcBefore dc0 i c else dc0 c)) →
      s.br = ⟨concatFrom blocks i k ++ r, pos, stop, later⟩ →
      ∃ dcp' f', mbBlocks e m.type.intra field m.coded addr row k i b s =
          (.ok (), { s with
            br := ⟨r, pos + (concatFrom blocks i k).length, stop, later⟩, dcp := dcp', frame := f' }) ∧
        (∀ c, c < 3 → dcp'.get c = (if m.type.intra then m.dcBefore dc0 6 c else dc0 c)) ∧
        PlacedAll W H row addr field i 6 (fun j k => clamp8 (m.residual e qsc j k +
          blockPred (d.fwdRef e.past) (d.bwdRef e.future) j row addr (k % 8) (k / 8))) s.frame f' := by
  intro k
  induction k with
  | zero =>
    intro i s b pos hik hmvd hqs hg hrel hbr
    refine ⟨s.dcp, s.frame, ?_, ?_, hg, ?_⟩
    · simp only [concatFrom, List.nil_append, List.length_nil, Nat.add_zero] at hbr ⊢
      rw [← hbr]; rfl
    · intro c hc'; rw [hrel c hc']
      have : i = 6 := by omega
      rw [this]
    · intro c x y hc' hx
      rw [if_neg (by omega)]
  | succ k ih =>
    intro i s b pos hik hmvd hqs hg hrel hbr
    have hi : i < 6 := by omega
    obtain ⟨b', dcp1, h1, h2, h3⟩ := mbBlock_run (stop := stop) (later := later) (e := e) (m := m) (s := s)
      (dc := fun c => if m.type.intra then m.dcBefore dc0 i c else dc0 c) (bits := blocks i) hi hc (by rw [hqs]; exact hq)
      hp hm (hdc i hi) hrel
      (by
        intro h
        have := hcod i hi h
        cases hin : m.type.intra with
        | true => rw [hin] at this; simpa using this
        | false =>
          rw [hin] at this
          exact blockCode_nonintra this _)
      (hunc i hi) b (concatFrom blocks (i + 1) k ++ r) pos
      (by rw [hbr]; simp [concatFrom, List.append_assoc])
    obtain ⟨f1, s1, h4, h5, h6⟩ := finishBlock_run (e := e) (d := d) (field := field) hg hr ha hi hf hb b'
    obtain ⟨dcp', f', h7, h8, h9⟩ := ih (i + 1)
      { s with br := ⟨concatFrom blocks (i + 1) k ++ r, pos + (blocks i).length, stop, later⟩, dcp := dcp1, frame := f1 }
      b' (pos + (blocks i).length) (by omega) hmvd hqs h5.geo
      (by
        intro c hc'
        show dcp1.get c = _
        rw [h3 c hc']
        cases m.type.intra with
        | true => simp [MbData.dcBefore]
        | false => simp)
      rfl
    refine ⟨dcp', f', ?_, h8, h9.geo, ?_⟩
    · unfold mbBlocks
      rw [Go.bind_ok h1]
      have e2 : ∀ st : MB, Go.get st = (.ok st, st) := fun _ => rfl
      rw [Go.bind_ok (e2 _)]
      have e3 : (orPanic (finishBlock e s.mvd b' i addr row field s.frame) : Go MB Frame)
          { s with br := ⟨concatFrom blocks (i + 1) k ++ r, pos + (blocks i).length, stop, later⟩, dcp := dcp1 } =
          (.ok f1, { s with
            br := ⟨concatFrom blocks (i + 1) k ++ r, pos + (blocks i).length, stop, later⟩, dcp := dcp1 }) := by
        rw [hmvd, h4]; rfl
      rw [Go.bind_ok e3]
      have e4 : (Go.modify (fun s : MB => { s with frame := f1 }) : Go MB Unit)
          { s with br := ⟨concatFrom blocks (i + 1) k ++ r, pos + (blocks i).length, stop, later⟩, dcp := dcp1 } =
          (.ok (), { s with
            br := ⟨concatFrom blocks (i + 1) k ++ r, pos + (blocks i).length, stop, later⟩, dcp := dcp1
            frame := f1 }) := rfl
      rw [Go.bind_ok e4, h7]
      simp [concatFrom, Nat.add_assoc]
    · intro c x y hc' hx
      rw [h9.pix c x y hc' hx]
      have := h5.pix c x y hc' hx
      show (if _ then _ else sampleOf f1 c x y) = _
      rw [this]
      have h64 := indexAt_lt field (c := c) x y
      by_cases hin : inMB (side c) row addr x y
      · have hb6 := blockAt_lt field hc' x y
        by_cases heq : blockAt field c x y = i
        · rw [if_neg (by omega), if_pos ⟨hin, heq⟩, if_pos ⟨hin, by omega, hb6⟩, h6 _ h64, h2 _ h64, hqs, heq]
        · by_cases hgt : i + 1 ≤ blockAt field c x y
          · rw [if_pos ⟨hin, hgt, hb6⟩, if_pos ⟨hin, by omega, hb6⟩]
          · rw [if_neg (by omega), if_neg (by omega), if_neg (by omega)]
      · rw [if_neg (fun h => hin h.1), if_neg (fun h => hin h.1), if_neg (fun h => hin h.1)]

end Mpeg.Video
