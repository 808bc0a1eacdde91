/-
C55, C59, C60: motion vectors, coded block patterns, address increments.
-/
import Verif.Video.RefLemmas3
namespace Mpeg.Video
open Spec

variable {stop : Err} {later : List (List Bool × Err)}

/-! ### C55 -/

/-- **C55**: decoding the standard's code for the difference of vector component `v` to its prediction yields `v`, for
every `f_code`, prediction and legal `v`; the stored prediction is `v` again.  For the vertical component of a field
vector in a frame picture the prediction is halved and the stored prediction doubled (ISO 13818-2 7.6.3.1). -/
theorem C55 {e : PicEnv} {info : MvInfo} {r a t : Nat} {v : Int} {bits : List Bool} {s : MB}
    (hdmv : info.dmv = false) (f1 : 1 ≤ e.pce.fCode a t) (f2 : e.pce.fCode a t ≤ 15)
    (halve : Bool) (hh : halve = (info.field && t == 1 && e.pce.pictureStructure == framePicture))
    (hv : mvLegal (e.pce.fCode a t) v)
    (hb : MvBits (e.pce.fCode a t)
      (mvDifference (e.pce.fCode a t) (if halve then s.mvd.pred r a t / 2 else s.mvd.pred r a t) v) bits)
    (rest : List Bool) (pos : Nat) (hbr : s.br = ⟨bits ++ rest, pos, stop, later⟩) :
    motionVectorPart e info r a t s = (.ok (), { s with
      br := ⟨rest, pos + bits.length, stop, later⟩
      mvd := { s.mvd with
        pred := upd3 s.mvd.pred r a t (if halve then v * 2 else v)
        act := upd3 s.mvd.act r a t v } }) := by
  unfold motionVectorPart
  have h1 := readMotion_run f1 f2 hb rest pos stop later
  rw [← hbr] at h1
  rw [Go.bind_ok (mlift_run h1), hdmv]
  simp only [Bool.false_eq_true, ↓reduceIte, Go.modify]
  unfold MVD.update
  rw [fScale_eq f1 f2]
  dsimp only
  rw [mvDelta_code, ← hh, mvWrap_difference hv]

/-- **C55** (codes): every legal vector can be coded, whatever the legal prediction is. -/
theorem C55_codes {fc : Nat} {p v : Int} (hp : mvLegal fc p) (hv : mvLegal fc v) :
    ∃ bits, MvBits fc (mvDifference fc p v) bits := by
  apply mvBits_exists
  have := mvScale_pos fc
  unfold mvLegal at hp hv
  unfold mvDifference
  dsimp only
  split
  · omega
  · split <;> omega

/-- **C55** (range): no sequence of slices, whatever their bits and however they end, produces a vector outside the
legal range; the predictions stay in it too in pictures with frame_pred_frame_dct 1, and never leave twice the range
otherwise.  A slice starts from zero vectors, so `VecInv` holds at every macroblock. -/
theorem C55_range {e : PicEnv} (he : FCodes e) :
    VecInv e MVD.init ∧ (∀ row addr s, VecInv e s.mvd → VecInv e (macroblock e row addr s).2.mvd) ∧
    (∀ fuel s, VecInv e s.mvd → VecInv e (sliceLoop e fuel s).2.mvd) :=
  ⟨vecInv_zero, fun _ _ _ h => keeps_macroblock he _ _ _ h, fun _ _ h => keeps_sliceLoop he _ _ h⟩

/-- f_code 3, prediction 60, vector -60: the difference wraps to 8, motion_code 2 with residual 3. -/
example : mvLegal 3 60 ∧ mvLegal 3 (-60) ∧ mvDifference 3 60 (-60) = 8 ∧ mvCode 3 8 = 2 ∧ mvResidual 3 8 = 3 ∧
    MvBits 3 8 (([false, false, true] ++ [false]) ++ [true, true]) := by
  refine ⟨by unfold mvLegal; decide, by unfold mvLegal; decide, by decide, by decide, by decide, ?_⟩
  exact MvBits.mk (fCode := 3) (d := 8) ([false, false, true] ++ [false]) (by decide +kernel)

/-! ### C59 -/

/-- **C59**: block `i` of the six is read exactly if the macroblock is intra, or has a pattern with bit `5 - i` set. -/
theorem C59 (cbp : Nat) (intra pattern : Bool) {i : Nat} (hi : i < 6) :
    patternCode cbp intra pattern i = (intra || (pattern && codedBlock cbp i)) := by
  unfold patternCode codedBlock
  have h : (decide (cbp / 2 ^ (5 - i) % 2 = 1)) = (cbp >>> (5 - i) &&& 1 == 1) := by
    rw [Nat.and_one_is_mod, Nat.shiftRight_eq_div_pow]
    rfl
  rw [h]
  simp [hi]

theorem mbBlocks_coded {e : PicEnv} {intra dct : Bool} {addr row : Nat} {c c' : Nat → Bool} : ∀ k i b,
    (∀ j, i ≤ j → j < i + k → c j = c' j) →
    mbBlocks e intra dct c addr row k i b = mbBlocks e intra dct c' addr row k i b := by
  intro k
  induction k with
  | zero => intro i b _; rfl
  | succ k ih =>
    intro i b h
    unfold mbBlocks
    rw [h i (by omega) (by omega)]
    have : ∀ b, mbBlocks e intra dct c addr row k (i + 1) b = mbBlocks e intra dct c' addr row k (i + 1) b :=
      fun b => ih (i + 1) b (fun j h1 h2 => h j (by omega) (by omega))
    simp only [this]

/-- **C59** (bits): for every pattern and every content, if the standard's codings of exactly the coded blocks follow,
in order, the block loop consumes exactly those bits; every uncoded block contributes a zero difference. -/
theorem C59_reads {e : PicEnv} {m : MbData} {dc0 : Nat → Int} {W H row addr pos : Nat} {s : MB}
    (hr : row < H) (ha : addr < W) (hc : Covered e) (hq : s.qsc < 32) (hg : Geometry s.frame W H)
    (hdc : ∀ i, i < 6 → m.type.intra = true → -2 ^ 28 ≤ (m.qf i).getD 0 0 ∧ (m.qf i).getD 0 0 < 2 ^ 28)
    (hrel : ∀ c, c < 3 → s.dcp.get c = dc0 c) (blocks : Nat → List Bool) (field : Bool) (fm fd : Nat)
    (hcod : ∀ i, i < 6 → m.coded i = true →
      BlockCode m.type.intra e.pce.intraVLCFormat (blockComp i) (m.dcBefore dc0 i (blockComp i)) (m.qf i) (blocks i))
    (hunc : ∀ i, i < 6 → m.coded i = false → blocks i = [])
    (hf : RefOK W H row addr (s.mvd.fwdRef e.past)) (hb : RefOK W H row addr (s.mvd.bwdRef e.future)) (r : List Bool)
    (hbr : s.br = ⟨concatFrom blocks 0 6 ++ r, pos, stop, later⟩) :
    ∃ dcp' f', mbFinish e row addr ⟨m.type, fm, fd, field⟩ m.cbp s = (.ok addr, { s with
        br := ⟨r, pos + (concatFrom blocks 0 6).length, stop, later⟩, dcp := dcp', frame := f' }) ∧
      (∀ c, c < 3 → dcp'.get c = (if m.type.intra then m.dcBefore dc0 6 c else dc0 c)) ∧
      PlacedAll W H row addr field 0 6 (fun j k => clamp8 (m.residual e s.qsc j k +
        blockPred (s.mvd.fwdRef e.past) (s.mvd.bwdRef e.future) j row addr (k % 8) (k / 8))) s.frame f' := by
  obtain ⟨dcp', f', h1, h2, h3⟩ := mbBlocks_run (stop := stop) (later := later) hr ha hc.chroma hq hc.precision
    (hc.matrix _) hdc blocks field hcod hunc hf hb r 6 0 s Block.zero pos rfl rfl rfl hg
    (by intro c hc'; rw [hrel c hc']; simp [MbData.dcBefore]) hbr
  refine ⟨dcp', f', ?_, h2, h3⟩
  unfold mbFinish
  have hbc : blockCount e.se.chromaFormat = 6 := by rw [hc.chroma]; rfl
  rw [hbc]
  rw [← mbBlocks_coded (c := patternCode m.cbp m.type.intra m.type.pattern) (c' := m.coded) 6 0 Block.zero
    (fun j _ hj => C59 _ _ _ (by omega))] at h1
  rw [Go.bind_ok h1]
  rfl

/-- **C59** (nothing else): a block that is not coded reads nothing and leaves the predictors alone. -/
theorem C59_uncoded (e : PicEnv) (intra : Bool) (i : Nat) (b : Block) (s : MB) :
    mbBlock e intra false i b s = (.ok Block.zero, s) := rfl

/-- Pattern 42 = 101010: blocks 0, 2 and 4. -/
example : (List.range 6).filter (patternCode 42 false true) = [0, 2, 4] := by decide

/-! ### C60 -/

/-- **C60**: `k` escapes and the code for `v` give the increment `33 k + v`, for every `k`; exactly these bits are
consumed.  (The decoder looks 11 bits ahead: at least 11 bits follow the escapes, as they do in every slice.) -/
theorem C60 {c r : List Bool} {v : Nat} (h : (c, v) ∈ isoAddress) (h11 : 11 ≤ (c ++ r).length) (k pos : Nat) :
    mbIncrement ⟨escapes k ++ (c ++ r), pos, stop, later⟩ =
      (.ok (33 * k + v), ⟨r, pos + 11 * k + c.length, stop, later⟩) :=
  mbIncrement_run ((same_addr _).2 h) h11 k pos stop later

/-- **C60** (codes): every increment from 1 to 33 has a code and no other. -/
theorem C60_codes (v : Nat) : (1 ≤ v ∧ v ≤ 33) ↔ ∃ c, (c, v) ∈ isoAddress := by
  have k1 : ∀ v < 34, 1 ≤ v → isoAddress.any (fun e => e.2 == v) = true := by decide +kernel
  have k2 : isoAddress.all (fun e => decide (1 ≤ e.2 ∧ e.2 ≤ 33)) = true := by decide +kernel
  rw [List.all_eq_true] at k2
  constructor
  · rintro ⟨h1, h2⟩
    have := k1 v (by omega) h1
    rw [List.any_eq_true] at this
    obtain ⟨⟨c, w⟩, hm, hw⟩ := this
    simp only [beq_iff_eq] at hw
    subst hw
    exact ⟨c, hm⟩
  · rintro ⟨c, hc⟩
    have := k2 _ hc
    simpa using this

/-- **C60** (converse): every increment that is read is `33 k + v` for some `k` escapes and the code for `v`, and exactly
these bits were consumed. -/
theorem C60_accepts {s s' : BR} {n : Nat} (h : mbIncrement s = (.ok n, s')) :
    ∃ k c v, n = 33 * k + v ∧ (c, v) ∈ isoAddress ∧ BR.Took s (escapes k ++ c) s' := by
  obtain ⟨k, c, v, h1, h2, h3⟩ := mbIncrement_inv h
  exact ⟨k, c, v, h1, (same_addr _).1 h2, h3⟩

/-- **C60** (address): whatever the bits, a macroblock that is decoded gets the address of the previous one plus the
increment (minus one for the first of a slice); only a wrong coded_block_pattern makes `macroblock` return 0 instead. -/
theorem C60_address {e : PicEnv} {row : Nat} {addr : Option Nat} {s s' : MB} {a : Nat}
    (h : macroblock e row addr s = (.ok a, s')) :
    ∃ incr s1, mbIncrement s.br = (.ok incr, s1) ∧ (a = addrAfter addr incr ∨ a = 0) := by
  unfold macroblock at h
  obtain ⟨incr, s1, h1, h⟩ := Go.bind_eq_ok h
  have hi : mbIncrement s.br = (.ok incr, (mbIncrement s.br).2) := by
    have : (mbIncrement s.br).1 = .ok incr := congrArg Prod.fst h1
    exact Prod.ext this rfl
  refine ⟨incr, _, hi, ?_⟩
  obtain ⟨_, s2, _, h⟩ := Go.bind_eq_ok h
  obtain ⟨_, s3, _, h⟩ := Go.bind_eq_ok h
  obtain ⟨m, s4, _, h⟩ := Go.bind_eq_ok h
  obtain ⟨_, s5, _, h⟩ := Go.bind_eq_ok h
  obtain ⟨_, s6, _, h⟩ := Go.bind_eq_ok h
  have hn : newAddress addr incr = addrAfter addr incr := by cases addr <;> rfl
  rw [hn] at h
  have hfin : ∀ cbp st st', mbFinish e row (addrAfter addr incr) m cbp st = (.ok a, st') → a = addrAfter addr incr := by
    intro cbp st st' hh
    unfold mbFinish at hh
    obtain ⟨_, _, _, hh⟩ := Go.bind_eq_ok hh
    cases hh; rfl
  by_cases hp : m.type.pattern = true
  · have hx : mbPattern e row (addrAfter addr incr) m = mbCoded e row (addrAfter addr incr) m := by
      unfold mbPattern; rw [if_pos hp]
    rw [hx] at h
    unfold mbCoded at h
    split at h
    · exact .inl (hfin _ _ _ h)
    · cases h; exact .inr rfl
    · cases h
    · cases h
  · have hx : mbPattern e row (addrAfter addr incr) m = mbFinish e row (addrAfter addr incr) m 0 := by
      unfold mbPattern; rw [if_neg hp]
    rw [hx] at h
    exact .inl (hfin _ _ _ h)

/-- Two escapes and the code of 8: increment 74. -/
example : (mbIncrement ⟨escapes 2 ++ ([false, false, false, false, true, true, true] ++ [true, false, true, true]),
    0, .eof, []⟩).1 = .ok 74 := by decide +kernel

end Mpeg.Video
