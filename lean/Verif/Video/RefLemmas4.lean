/-
The decoder refines the reference decoder: a whole macroblock.
-/
import Verif.Video.MbProps
namespace Mpeg.Video
open Spec

variable {stop : Err} {later : List (List Bool × Err)}

theorem Rel.withBr {W H : Nat} {s : MB} {d : DState} (h : Rel W H s d) (b : BR) : Rel W H { s with br := b } d :=
  ⟨h.frame, h.dc, h.mvd, h.qsc⟩

theorem reset_get (p c : Nat) : (DcPred.reset p).get c = dcReset p c := by
  unfold DcPred.reset DcPred.get dcReset
  dsimp only
  split
  · rfl
  · split <;> rfl

theorem skipResets_rel {e : PicEnv} {r : RefPics} {s : MB} {d : DState} {W H row incr : Nat} {addr : Option Nat}
    (hrel : Rel W H s d) {f : Frame} (hf : Shows W H f (d.skip e r row addr incr).pic) :
    ∃ s', skipResets e incr { s with frame := f } = (.ok (), s') ∧ s'.br = s.br ∧
      Rel W H s' (d.skip e r row addr incr) := by
  refine ⟨_, rfl, rfl, hf, ?_, ?_, ?_⟩
  · intro c hc
    unfold DState.skip
    dsimp only
    by_cases h : 1 < incr
    · rw [if_pos h, if_neg (by omega)]; exact reset_get _ _
    · rw [if_neg h, if_pos (by omega)]; exact hrel.dc c hc
  · unfold DState.skip
    dsimp only
    by_cases h : 1 < incr
    · rw [if_neg (show ¬ incr ≤ 1 by omega)]
      by_cases h2 : e.ph.pictureCodingType = 2
      · rw [if_pos (show e.ph.pictureCodingType = pFrame ∧ 1 < incr from ⟨h2, h⟩)]
        refine ⟨fun _ _ _ _ => ?_, fun _ _ _ _ => ?_, hrel.mvd.fwd, hrel.mvd.bwd⟩
        · show _ = (if e.ph.pictureCodingType = 2 then (fun _ _ => (0 : Int)) else d.vec) _ _
          rw [if_pos h2]; rfl
        · show _ = (if e.ph.pictureCodingType = 2 then (fun _ _ => (0 : Int)) else d.vec) _ _
          rw [if_pos h2]; rfl
      · rw [if_neg (fun h' : e.ph.pictureCodingType = pFrame ∧ 1 < incr => h2 h'.1)]
        refine ⟨fun a t ha ht => ?_, fun a t ha ht => ?_, hrel.mvd.fwd, hrel.mvd.bwd⟩
        · show _ = (if e.ph.pictureCodingType = 2 then (fun _ _ => (0 : Int)) else d.vec) a t
          rw [if_neg h2]
          exact hrel.mvd.pred a t ha ht
        · show _ = (if e.ph.pictureCodingType = 2 then (fun _ _ => (0 : Int)) else d.vec) a t
          rw [if_neg h2]
          exact hrel.mvd.act a t ha ht
    · rw [if_neg (fun h' : e.ph.pictureCodingType = pFrame ∧ 1 < incr => h h'.2), if_pos (show incr ≤ 1 by omega)]
      exact hrel.mvd
  · unfold DState.skip
    dsimp only
    split
    · exact hrel.qsc
    · exact hrel.qsc

theorem modeResets_rel {e : PicEnv} (hc : Covered e) {s : MB} {d : DState} {W H : Nat} (hrel : Rel W H s d)
    (t : MacroblockType) :
    ∃ s', modeResets e t s = (.ok (), s') ∧ s'.br = s.br ∧ Rel W H s' (d.begin e t) := by
  refine ⟨_, rfl, rfl, hrel.frame, ?_, ?_, hrel.qsc⟩
  · intro c hc
    unfold DState.begin
    dsimp only
    cases t.intra
    · simp only [↓reduceIte, Bool.false_eq_true]; exact reset_get _ _
    · simp only [↓reduceIte]; exact hrel.dc c hc
  · unfold DState.begin
    dsimp only
    have hiff : ((t.intra = true ∧ e.pce.concealmentMotionVectors = false) ∨
        (e.ph.pictureCodingType = pFrame ∧ t.intra = false ∧ t.forward = false)) ↔
        ((t.intra = true ∧ e.pce.concealmentMotionVectors = false) ∨
        (t.intra = false ∧ e.ph.pictureCodingType = 2 ∧ t.forward = false)) := by
      cases hi : t.intra <;> simp
    by_cases h : (t.intra = true ∧ e.pce.concealmentMotionVectors = false) ∨
        (t.intra = false ∧ e.ph.pictureCodingType = 2 ∧ t.forward = false)
    · rw [if_pos (hiff.2 h), if_pos h]
      exact ⟨fun _ _ _ _ => rfl, fun _ _ _ _ => rfl, hrel.mvd.fwd, hrel.mvd.bwd⟩
    · rw [if_neg (fun h' => h (hiff.1 h')), if_neg h]
      exact ⟨hrel.mvd.pred, hrel.mvd.act, hrel.mvd.fwd, hrel.mvd.bwd⟩

theorem mbVectors_run {e : PicEnv} (hc : Covered e) {s : MB} {d : DState} {W H : Nat} (hrel : Rel W H s d) {m : MbData}
    (code : MbCode e d m) (r : List Bool) (pos : Nat)
    (hbr : s.br = ⟨(if m.type.quant then bitsOf 5 m.q else []) ++ (code.vecBits 0 ++ (code.vecBits 1 ++ (concealMarker e m ++ r))), pos, stop,
      later⟩) :
    ∃ s', mbVectors e (modeOf e m) s = (.ok (), s') ∧ Rel W H s' (d.param e m) ∧
      s'.br = ⟨r, pos + (if m.type.quant then bitsOf 5 m.q else []).length + (code.vecBits 0).length +
        (code.vecBits 1).length + (concealMarker e m).length, stop, later⟩ := by
  -- quantiser scale
  obtain ⟨s1, h1, b1, r1⟩ : ∃ s1, Go.opt m.type.quant () (do
      let q ← MB.lift (BR.read 5)
      Go.modify fun s : MB => { s with qsc := q }) s = (.ok (), s1) ∧
      s1.br = ⟨code.vecBits 0 ++ (code.vecBits 1 ++ (concealMarker e m ++ r)), pos + (if m.type.quant then bitsOf 5 m.q else []).length, stop,
        later⟩ ∧ Rel W H s1 { d with qsc := if m.type.quant then m.q else d.qsc } := by
    cases hq : m.type.quant with
    | true =>
      rw [hq] at hbr
      simp only [↓reduceIte] at hbr ⊢
      have h0 : BR.read 5 s.br = (.ok m.q, ⟨code.vecBits 0 ++ (code.vecBits 1 ++ (concealMarker e m ++ r)), pos + 5, stop, later⟩) := by
        rw [hbr, BR.read_bitsOf, Nat.mod_eq_of_lt code.hQ]
      refine ⟨{ s with br := ⟨code.vecBits 0 ++ (code.vecBits 1 ++ (concealMarker e m ++ r)), pos + 5, stop, later⟩, qsc := m.q }, ?_, ?_, ?_⟩
      · rw [opt_true, Go.bind_ok (mlift_run h0)]; rfl
      · simp
      · exact ⟨hrel.frame, hrel.dc, ⟨hrel.mvd.pred, hrel.mvd.act, hrel.mvd.fwd, hrel.mvd.bwd⟩, rfl⟩
    | false =>
      rw [hq] at hbr
      simp only [Bool.false_eq_true, ↓reduceIte, List.nil_append] at hbr ⊢
      exact ⟨s, rfl, by simpa using hbr, hrel⟩
  -- forward vectors
  obtain ⟨mv2, h2, p2, a2, f2, g2⟩ := motionVectors_opt (stop := stop) (later := later) hc (m := m) (a := 0) (by omega)
    (s := s1) (vecs := code.vecs)
    (fun t ht hh => by
      rw [r1.mvd.pred 0 t (by omega) ht]
      exact code.hVec 0 t (by omega) ht hh)
    (code.vecBits 1 ++ (concealMarker e m ++ r)) _ b1
  obtain ⟨mv3, h3, p3, a3, f3, g3⟩ := motionVectors_opt (stop := stop) (later := later) hc (m := m) (a := 1) (by omega)
    (s := { s1 with br := ⟨code.vecBits 1 ++ (concealMarker e m ++ r), pos + (if m.type.quant then bitsOf 5 m.q else []).length +
      (code.vecBits 0).length, stop, later⟩, mvd := mv2 }) (vecs := code.vecs)
    (fun t ht hh => by
      dsimp only
      rw [p2 1 t (by omega) ht, if_neg (by omega), r1.mvd.pred 1 t (by omega) ht]
      exact code.hVec 1 t (by omega) ht hh) (concealMarker e m ++ r) _ rfl
  obtain ⟨q1, q2, q3, q4⟩ := setFormed_eq code.hType mv3
  refine ⟨{ s1 with
    br := ⟨r, pos + (if m.type.quant then bitsOf 5 m.q else []).length + (code.vecBits 0).length +
        (code.vecBits 1).length + (concealMarker e m).length, stop, later⟩
    mvd := mv3.setFormed m.type e.ph.pictureCodingType }, ?_, ⟨r1.frame, r1.dc, ⟨?_, ?_, ?_, ?_⟩, r1.qsc⟩, rfl⟩
  · unfold mbVectors
    rw [show (modeOf e m).type = m.type from rfl, Go.bind_ok h1]
    have h2' : Go.opt (m.type.forward || (m.type.intra && e.pce.concealmentMotionVectors)) () (motionVectors e 0 (modeOf e m)) s1 = (.ok (), { s1 with
      br := ⟨code.vecBits 1 ++ (concealMarker e m ++ r), pos + (if m.type.quant then bitsOf 5 m.q else []).length +
      (code.vecBits 0).length, stop, later⟩, mvd := mv2 }) := h2
    rw [Go.bind_ok h2']
    have h3' : Go.opt m.type.backward () (motionVectors e 1 (modeOf e m)) _ = _ := h3
    rw [Go.bind_ok h3', Go.bind_ok (Go.modify_apply _ _)]
    unfold concealMarker conceals
    cases hcm : (m.type.intra && e.pce.concealmentMotionVectors) with
    | true =>
      rw [opt_true]
      refine (mlift_run (br' := ⟨r, pos + (if m.type.quant then bitsOf 5 m.q else []).length + (code.vecBits 0).length +
        (code.vecBits 1).length + 1, stop, later⟩) (a := ()) ?_).trans ?_
      · simp only [↓reduceIte, List.cons_append, List.nil_append]
        unfold markerBit
        rw [Go.bind_ok (BR.read1_cons _)]
        rfl
      · rfl
    | false => rfl
  · intro a t ha ht
    dsimp only [DState.param]
    rw [q1, p3 a t ha ht]
    dsimp only
    rw [p2 a t ha ht, r1.mvd.pred a t ha ht]
    rcases (show a = 0 ∨ a = 1 by omega) with rfl | rfl
    · cases hasVec e m.type 0 <;> simp
    · cases hasVec e m.type 1 <;> simp
  · intro a t ha ht
    dsimp only [DState.param]
    rw [q2, a3 a t ha ht]
    dsimp only
    rw [a2 a t ha ht, r1.mvd.act a t ha ht]
    rcases (show a = 0 ∨ a = 1 by omega) with rfl | rfl
    · cases hasVec e m.type 0 <;> simp
    · cases hasVec e m.type 1 <;> simp
  · exact q3
  · exact q4

theorem recon_rel {e : PicEnv} {r : RefPics} {m : MbData} {W H row addr : Nat} {s : MB} {d : DState}
    {F : Prop} (hrr : RefsIf F W H e r) (hd : Dirs e.ph.pictureCodingType d) (hF : d.fwd = true → F) (hrel : Rel W H s d) (hin : DState.Inside d W H row addr)
    (hdct : m.dct = true → d.fwd = false ∧ d.bwd = false) {b : BR} {dcp' : DcPred} {f' : Frame}
    (hdc : ∀ c, c < 3 → dcp'.get c = (if m.type.intra then m.dcBefore d.dc 6 c else d.dc c))
    (hp : PlacedAll W H row addr m.dct 0 6 (fun j k => clamp8 (m.residual e s.qsc j k +
        blockPred (s.mvd.fwdRef e.past) (s.mvd.bwdRef e.future) j row addr (k % 8) (k / 8))) s.frame f') :
    Rel W H { s with br := b, dcp := dcp', frame := f' } (d.recon e r row addr m) := by
  refine ⟨⟨hp.geo, fun c x y hc hx hy => ?_⟩, ?_, ⟨hrel.mvd.pred, hrel.mvd.act, hrel.mvd.fwd, hrel.mvd.bwd⟩, hrel.qsc⟩
  · rw [hp.pix c x y hc hx]
    have hb6 := blockAt_lt m.dct hc x y
    unfold DState.recon
    dsimp only
    by_cases hmb : inMB (side c) row addr x y
    · rw [if_pos ⟨hmb, by omega, hb6⟩, if_pos hmb, clip_eq, hrel.qsc]
      congr 2
      cases hdt : m.dct with
      | false => rw [blockPred_at hrr hd hF hrel.mvd hin hc hmb]
      | true =>
        obtain ⟨n1, n2⟩ := hdct hdt
        rw [blockPred_none (by rw [hrel.mvd.fwd]; exact n1) (by rw [hrel.mvd.bwd]; exact n2), predicted_none n1 n2]
    · rw [if_neg (fun h => hmb h.1), if_neg hmb]
      exact hrel.frame.2 c x y hc hx hy
  · intro c hc
    show dcp'.get c = _
    rw [hdc c hc]
    unfold DState.recon
    dsimp only
    split <;> rfl

theorem mbPattern_run {e : PicEnv} (hc : Covered e) {r : RefPics} {m : MbData} {W H row addr : Nat} {s : MB}
    {d0 d : DState} {F : Prop} (hrr : RefsIf F W H e r) (hd : Dirs e.ph.pictureCodingType d) (hF : d.fwd = true → F) (hrel : Rel W H s d) (hin : DState.Inside d W H row addr)
    (hdct : m.dct = true → d.fwd = false ∧ d.bwd = false) (hr : row < H) (ha : addr < W) (hq : d.qsc < 32)
    (code : MbCode e d0 m) (hdc : d0.dc = d.dc) (rest : List Bool) (pos : Nat)
    (hbr : s.br = ⟨(if m.type.pattern then code.pattern else []) ++ (concatFrom code.blocks 0 6 ++ rest), pos, stop,
      later⟩) :
    ∃ s', mbPattern e row addr (modeOf e m) s = (.ok addr, s') ∧ Rel W H s' (d.recon e r row addr m) ∧
      s'.br = ⟨rest, pos + (if m.type.pattern then code.pattern else []).length +
        (concatFrom code.blocks 0 6).length, stop, later⟩ := by
  obtain ⟨o1, o2⟩ := refOK_fwd hrr hd hF hrel.mvd hin
  have hcod := code.hCoded
  rw [hdc] at hcod
  cases hp : m.type.pattern with
  | true =>
    rw [hp] at hbr
    simp only [↓reduceIte] at hbr ⊢
    have e1 : codedBlockPattern e.se.chromaFormat s.br =
        (.ok m.cbp, ⟨concatFrom code.blocks 0 6 ++ rest, pos + code.pattern.length, stop, later⟩) := by
      have h0 : decodeCbp s.br =
          (.ok m.cbp, ⟨concatFrom code.blocks 0 6 ++ rest, pos + code.pattern.length, stop, later⟩) := by
        rw [hbr]; exact huffDecode_code pf_cbp ((same_cbp _).2 (code.hPattern hp)) _ _ stop later
      unfold codedBlockPattern
      rw [h0, hc.chroma]
      rfl
    obtain ⟨dcp', f', h1, h2, h3⟩ := C59_reads (stop := stop) (later := later) hr ha hc
      (s := { s with br := ⟨concatFrom code.blocks 0 6 ++ rest, pos + code.pattern.length, stop, later⟩ })
      (show s.qsc < 32 by rw [hrel.qsc]; exact hq) hrel.frame.1 code.hDc hrel.dc code.blocks m.dct
      (modeOf e m).frameMotion 0 hcod code.hUncoded o1 o2 rest rfl
    refine ⟨{ s with
      br := ⟨rest, pos + code.pattern.length + (concatFrom code.blocks 0 6).length, stop, later⟩
      dcp := dcp', frame := f' }, ?_, recon_rel (b := ⟨rest, pos + code.pattern.length +
        (concatFrom code.blocks 0 6).length, stop, later⟩) hrr hd hF hrel hin hdct h2 h3, rfl⟩
    have hx : mbPattern e row addr (modeOf e m) = mbCoded e row addr (modeOf e m) := by
      unfold mbPattern; rw [show (modeOf e m).type = m.type from rfl, hp]; simp only [↓reduceIte, Bool.false_eq_true]
    rw [hx]
    unfold mbCoded
    rw [mlift_run e1]
    exact h1
  | false =>
    rw [hp] at hbr
    simp only [Bool.false_eq_true, ↓reduceIte, List.nil_append, List.length_nil, Nat.add_zero] at hbr ⊢
    obtain ⟨dcp', f', h1, h2, h3⟩ := mbBlocks_run (stop := stop) (later := later) (e := e) (m := m) (qsc := s.qsc)
      hr ha hc.chroma (by rw [hrel.qsc]; exact hq) hc.precision
      (hc.matrix _) code.hDc code.blocks m.dct hcod code.hUncoded o1 o2 rest 6 0 s Block.zero pos rfl rfl rfl hrel.frame.1
      (by intro c hc'; rw [hrel.dc c hc']; simp [MbData.dcBefore]) hbr
    refine ⟨{ s with
      br := ⟨rest, pos + (concatFrom code.blocks 0 6).length, stop, later⟩
      dcp := dcp', frame := f' }, ?_, recon_rel (b := ⟨rest, pos + (concatFrom code.blocks 0 6).length, stop, later⟩)
        hrr hd hF hrel hin hdct h2 h3, rfl⟩
    have hx : mbPattern e row addr (modeOf e m) = mbFinish e row addr (modeOf e m) 0 := by
      unfold mbPattern; rw [show (modeOf e m).type = m.type from rfl, hp]; simp only [↓reduceIte, Bool.false_eq_true]
    rw [hx]
    unfold mbFinish
    have hbc : blockCount e.se.chromaFormat = 6 := by rw [hc.chroma]; rfl
    rw [hbc]
    rw [← mbBlocks_coded (c := patternCode 0 m.type.intra m.type.pattern) (c' := m.coded) 6 0 Block.zero
      (fun j _ hj => by
        rw [C59 _ _ _ (show j < 6 by omega)]
        unfold MbData.coded
        rw [hp]; simp)] at h1
    have h1' : mbBlocks e (modeOf e m).type.intra (modeOf e m).dctType
      (patternCode 0 (modeOf e m).type.intra (modeOf e m).type.pattern) addr row 6 0 Block.zero s = _ := h1
    rw [Go.bind_ok h1']
    rfl

theorem macroblock_run {e : PicEnv} (hc : Covered e) {r : RefPics} {m : MbData} {W H row : Nat} {addr : Option Nat}
    {s : MB} {d : DState} {F : Prop} (hrr : RefsIf F W H e r) (hF : d.fwd = true → F)
    (h2F : e.ph.pictureCodingType = 2 → F) (hmF : m.type.forward = true → F) (s1 : Samples r.past) (s2 : Samples r.future) (hrel : Rel W H s d)
    (hr : row < H) (hq : d.qsc < 32) (hl : MbLegal e r W H row addr d m)
    (code : MbCode e ((d.skip e r row addr m.incr).begin e m.type) m) (rest : List Bool) (h11 : 11 ≤ rest.length)
    (pos : Nat) (hbr : s.br = ⟨code.bits ++ rest, pos, stop, later⟩) :
    ∃ s', macroblock e row addr s = (.ok (addrAfter addr m.incr), s') ∧
      s'.br = ⟨rest, pos + code.bits.length, stop, later⟩ ∧ Rel W H s' (d.mb e r row addr m) := by
  unfold MbCode.bits at hbr ⊢
  -- increment
  have i1 := C60 (stop := stop) (later := later) code.hAddr
    (r := code.type ++ (modeBits e.pce.framePredFrameDCT m ++ ((if m.type.quant then bitsOf 5 m.q else []) ++
      (code.vecBits 0 ++ (code.vecBits 1 ++ (concealMarker e m ++ ((if m.type.pattern then code.pattern else []) ++
        (concatFrom code.blocks 0 6 ++ rest)))))))) (by simp only [List.length_append]; omega) code.k pos
  have hbr' : s.br = ⟨escapes code.k ++ (code.addr ++ (code.type ++ (modeBits e.pce.framePredFrameDCT m ++
      ((if m.type.quant then bitsOf 5 m.q else []) ++ (code.vecBits 0 ++ (code.vecBits 1 ++
        (concealMarker e m ++ ((if m.type.pattern then code.pattern else []) ++ (concatFrom code.blocks 0 6 ++ rest))))))))), pos, stop,
      later⟩ := by
    rw [hbr]; simp only [List.append_assoc]
  rw [← hbr', ← code.hIncr] at i1
  -- skipped macroblocks
  obtain ⟨f1, c1, c2⟩ := copySkipped_run (incr := m.incr) (addr := addr) hrr hF h2F (hrel.withBr _) hr s1 s2 hl.inPicture
    hl.skipP hl.skipB
  obtain ⟨st3, k1, k2, k3⟩ := skipResets_rel (r := r) (row := row) (incr := m.incr) (addr := addr) (hrel.withBr _) c2
  -- modes
  have m1 := macroblockMode_run (stop := stop) (later := later) hc.structure_ hc.fpfd code.hType code.hDct
    ((if m.type.quant then bitsOf 5 m.q else []) ++ (code.vecBits 0 ++ (code.vecBits 1 ++
        (concealMarker e m ++ ((if m.type.pattern then code.pattern else []) ++ (concatFrom code.blocks 0 6 ++ rest))))))
    (pos + 11 * code.k + code.addr.length)
  have m1' : macroblockMode e st3.br = _ := (congrArg (macroblockMode e) k2).trans m1
  obtain ⟨st5, n1, n2, n3⟩ := modeResets_rel hc (k3.withBr _) m.type
  obtain ⟨st6, v1, v2, v3⟩ := mbVectors_run (stop := stop) (later := later) hc n3 code
    ((if m.type.pattern then code.pattern else []) ++ (concatFrom code.blocks 0 6 ++ rest)) _ n2
  obtain ⟨t1, _, _, _⟩ := type_facts code.hType
  obtain ⟨st7, w1, w2, w3⟩ := mbPattern_run (stop := stop) (later := later) hc hrr (dirs_param code.hType) (fwd_param h2F hmF) v2 hl.vectors
    (fun h => by
      have hi := hl.frameDct h
      refine ⟨?_, ?_⟩ <;> simp [DState.param, hi]) hr hl.inPicture
    (by
      show (if m.type.quant then m.q else _) < 32
      split
      · exact code.hQ
      · show (d.skip e r row addr m.incr).qsc < 32
        unfold DState.skip; split <;> exact hq) code rfl rest _ v3
  refine ⟨st7, ?_, ?_, w2⟩
  · unfold macroblock
    rw [Go.bind_ok (mlift_run i1), Go.bind_ok c1, Go.bind_ok k1, Go.bind_ok (mlift_run m1')]
    rw [show (modeOf e m).type = m.type from rfl, Go.bind_ok n1, Go.bind_ok v1]
    have hn : newAddress addr m.incr = addrAfter addr m.incr := by cases addr <;> rfl
    rw [hn]
    exact w1
  · rw [w3]
    simp only [List.length_append, escapes_length, BR.mk.injEq, true_and, and_true]
    omega

end Mpeg.Video
