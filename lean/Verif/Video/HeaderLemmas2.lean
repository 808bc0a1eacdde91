/-
Picture coding extension, the other extensions, user data; exact behaviour of `next_start_code` and `AlignTo`.
-/
import Verif.Video.HeaderLemmas
set_option linter.all false
namespace Mpeg.Video
open Spec

section
variable {r : List Bool} {pos : Nat} {stop : Err} {later : List (List Bool × Err)}

/-! ### picture coding extension -/

def viewPicExt (h : PicExt) : PictureCodingExtension :=
  { f00 := h.f00, f01 := h.f01, f10 := h.f10, f11 := h.f11, intraDCPrecision := h.dcPrecision,
    pictureStructure := h.structure_, topFieldFirst := h.topFieldFirst, framePredFrameDCT := h.framePredFrameDCT,
    concealmentMotionVectors := h.concealment, qScaleType := h.qScaleType, intraVLCFormat := h.intraVLC,
    alternateScan := h.alternateScan, repeatFirstField := h.repeatFirstField, chroma420Type := h.chroma420,
    progressiveFrame := h.progressive, compositeDisplayFlag := h.composite.isSome,
    vAxis := (h.composite.map (·.vAxis)).getD false, fieldSequence := (h.composite.map (·.fieldSequence)).getD 0,
    subCarrier := (h.composite.map (·.subCarrier)).getD false,
    burstAmplitude := (h.composite.map (·.burstAmplitude)).getD 0,
    subCarrierPhase := (h.composite.map (·.subCarrierPhase)).getD 0 }

theorem readPictureCodingExtension_enc (h : PicExt) (hw : h.WF) :
    readPictureCodingExtension ⟨encPicExt h ++ r, pos, stop, later⟩ =
      (.ok (viewPicExt h), ⟨r, pos + (encPicExt h).length, stop, later⟩) := by
  obtain ⟨h1, h2, h3, h4, h5, h6, h7, h8, h9, h10, h11⟩ := hw
  have m1 := Nat.mod_eq_of_lt (show h.f00 < 2 ^ 4 from h1)
  have m2 := Nat.mod_eq_of_lt (show h.f01 < 2 ^ 4 from h2)
  have m3 := Nat.mod_eq_of_lt (show h.f10 < 2 ^ 4 from h3)
  have m4 := Nat.mod_eq_of_lt (show h.f11 < 2 ^ 4 from h4)
  have m5 := Nat.mod_eq_of_lt (show h.dcPrecision < 2 ^ 2 from h5)
  have m6 := Nat.mod_eq_of_lt (show h.structure_ < 2 ^ 2 from h6)
  have m7 := Nat.mod_eq_of_lt (show h.framePredFrameDCT < 2 ^ 1 from h7)
  have m8 := Nat.mod_eq_of_lt (show h.qScaleType < 2 ^ 1 from h8)
  have m9 := Nat.mod_eq_of_lt (show h.intraVLC < 2 ^ 1 from h9)
  have m10 := Nat.mod_eq_of_lt (show h.alternateScan < 2 ^ 1 from h10)
  unfold readPictureCodingExtension
  simp only [encPicExt, List.append_assoc, List.cons_append, List.nil_append]
  rw [Go.bind_ok (startCode_bits _ (by decide)), Go.bind_ok (extensionID_bits _ (by decide)),
    Go.bind_ok (BR.read_bitsOf ..), Go.bind_ok (BR.read_bitsOf ..), Go.bind_ok (BR.read_bitsOf ..),
    Go.bind_ok (BR.read_bitsOf ..), Go.bind_ok (BR.read_bitsOf ..), Go.bind_ok (BR.read_bitsOf ..),
    Go.bind_ok (BR.read1_cons _), Go.bind_ok (BR.read_bitsOf ..), Go.bind_ok (BR.read1_cons _),
    Go.bind_ok (BR.read_bitsOf ..), Go.bind_ok (BR.read_bitsOf ..), Go.bind_ok (BR.read_bitsOf ..),
    Go.bind_ok (BR.read1_cons _), Go.bind_ok (BR.read1_cons _), Go.bind_ok (BR.read1_cons _),
    m1, m2, m3, m4, m5, m6, m7, m8, m9, m10]
  obtain ⟨_, _, _, _, _, _, _, _, _, _, _, _, _, _, _, comp⟩ := h
  cases comp with
  | none =>
    simp only [encComposite, List.cons_append, List.nil_append]
    rw [Go.bind_ok (BR.read1_cons _)]
    simp only [Go.opt_false]
    rw [Go.bind_ok (Go.pure_apply ..), Go.bind_ok (Go.pure_apply ..), Go.bind_ok (Go.pure_apply ..),
      Go.bind_ok (Go.pure_apply ..), Go.bind_ok (Go.pure_apply ..), Go.pure_apply]
    simp only [List.length_append, length_bitsOf, List.length_cons, List.length_nil]
    rfl
  | some c =>
    obtain ⟨c1, c2, c3⟩ := h11 c rfl
    simp only [encComposite, List.append_assoc, List.cons_append, List.nil_append]
    rw [Go.bind_ok (BR.read1_cons _)]
    simp only [Go.opt_true]
    rw [Go.bind_ok (BR.read1_cons _), Go.bind_ok (BR.read_bitsOf ..), Go.bind_ok (BR.read1_cons _),
      Go.bind_ok (BR.read_bitsOf ..), Go.bind_ok (BR.read_bitsOf ..), Go.pure_apply,
      Nat.mod_eq_of_lt (show c.fieldSequence < 2 ^ 3 from c1), Nat.mod_eq_of_lt (show c.burstAmplitude < 2 ^ 7 from c2),
      Nat.mod_eq_of_lt (show c.subCarrierPhase < 2 ^ 8 from c3)]
    simp only [List.length_append, length_bitsOf, List.length_cons, List.length_nil]
    rfl

/-! ### user data -/

theorem userLoop_enc : ∀ (d : List Nat) (fuel pos : Nat), (∀ x ∈ d, x < 256) → d.length < fuel →
    (∀ j < d.length, ((d.flatMap (bitsOf 8) ++ (prefix1 ++ r)).drop (8 * j)).take 24 ≠ prefix1) →
    userDataLoop fuel ⟨d.flatMap (bitsOf 8) ++ (prefix1 ++ r), pos, stop, later⟩ =
      (.ok d, ⟨prefix1 ++ r, pos + 8 * d.length, stop, later⟩)
  | d, 0, pos, h, hf, hn => absurd hf (Nat.not_lt_zero _)
  | [], f + 1, pos, h, hf, hn => by
    simp only [List.flatMap_nil, List.nil_append, userDataLoop, prefix1_eq]
    rw [Go.bind_ok (BR.peek_bitsOf 24 1), if_pos (by decide)]
    rfl
  | x :: d, f + 1, pos, h, hf, hn => by
    have h0 := hn 0 (by simp)
    simp only [Nat.mul_zero, List.drop_zero] at h0
    have hlen : 24 ≤ ((x :: d).flatMap (bitsOf 8) ++ (prefix1 ++ r)).length := by
      simp only [List.length_append, prefix1, zeros, List.length_replicate, List.length_cons, List.length_nil]
      omega
    have hp := BR.peek_ok (s := ⟨(x :: d).flatMap (bitsOf 8) ++ (prefix1 ++ r), pos, stop, later⟩) (k := 24) hlen
    rw [userDataLoop, Go.bind_ok hp, if_neg]
    · simp only [List.flatMap_cons, List.append_assoc]
      rw [Go.bind_ok (BR.read_bitsOf 8 x)]
      have hrec := userLoop_enc d f (pos + 8) (fun y hy => h y (List.mem_cons_of_mem _ hy))
        (by simp only [List.length_cons] at hf; omega) (by
          intro j hj
          have := hn (j + 1) (by simp only [List.length_cons]; omega)
          simp only [List.flatMap_cons, List.append_assoc] at this
          rw [show 8 * (j + 1) = (bitsOf 8 x).length + 8 * j by rw [length_bitsOf]; omega, List.drop_length_add_append] at this
          exact this)
      rw [Go.bind_ok hrec, Go.pure_apply, Nat.mod_eq_of_lt (show x < 2 ^ 8 from h x (List.mem_cons_self ..))]
      simp only [List.length_cons, Prod.mk.injEq, BR.mk.injEq, true_and, and_true]
      omega
    · intro he
      apply h0
      have : (((x :: d).flatMap (bitsOf 8) ++ (prefix1 ++ r)).take 24).length = 24 := by
        rw [List.length_take]; omega
      rw [← bitsOf_natOfBits' this, he, prefix1_eq]

theorem userData_enc (d : List Nat) (h : ∀ x ∈ d, x < 256)
    (hn : ∀ j < d.length, ((d.flatMap (bitsOf 8) ++ (prefix1 ++ r)).drop (8 * j)).take 24 ≠ prefix1)
    (hp : pos % 8 = 0) :
    userData ⟨encUser d ++ (prefix1 ++ r), pos, stop, later⟩ =
      (.ok d, ⟨prefix1 ++ r, pos + (encUser d).length, stop, later⟩) := by
  unfold userData
  have hl : (d.flatMap (bitsOf 8)).length = 8 * d.length := length_encMat d
  simp only [encUser, List.append_assoc]
  rw [Go.bind_ok (startCode_bits _ (by decide))]
  have h1 : userDataBytes ⟨d.flatMap (bitsOf 8) ++ (prefix1 ++ r), pos + 32, stop, later⟩ =
      (.ok d, ⟨prefix1 ++ r, pos + 32 + 8 * d.length, stop, later⟩) := by
    refine userLoop_enc d _ _ h ?_ hn
    simp only [List.length_append, hl]; omega
  rw [Go.bind_ok h1]
  have h2 := nextStartCode_tail (pos := pos + 32 + 8 * d.length) (stop := stop) (later := later) ⟨[], 0, r⟩
    (by unfold Tail.OK padding; simp only [List.length_nil]; omega)
  simp only [Tail.bits, Tail.after, zeros, Nat.mul_zero, List.replicate_zero, List.nil_append, List.length_nil,
    Nat.add_zero] at h2
  rw [Go.bind_ok h2, Go.pure_apply]
  simp only [List.length_append, length_bitsOf, hl, Prod.mk.injEq, BR.mk.injEq, true_and, and_true]
  omega

/-! ### matrices in the decoder state -/

theorem lift_ok {α : Type} {m : Go BR α} {s : VS} {a : α} {b : BR} (h : m s.br = (.ok a, b)) :
    VS.lift m s = (.ok a, { s with br := b }) := by
  unfold VS.lift; rw [h]

theorem loadMatrix_enc (set : QMatrices → Matrix → QMatrices) (m : Option Mat) (h : optWF m) (s : VS)
    (hb : s.br = ⟨encLoad m ++ r, pos, stop, later⟩) :
    loadMatrix set s = (.ok (), { s with br := ⟨r, pos + loadLen m, stop, later⟩,
                                         qm := (m.map (set s.qm)).getD s.qm }) := by
  unfold loadMatrix
  have h1 := lift_ok (m := BR.read1) (s := s) (by rw [hb]; exact readFlag_enc m)
  rw [Go.bind_ok h1]
  cases m with
  | none => rfl
  | some m =>
    simp only [Option.isSome_some, Go.opt_true, loadBits]
    rw [Go.bind_ok (lift_ok (readMatrix_enc m (h m rfl)))]
    simp only [Go.modify_apply, Option.map_some, Option.getD_some, loadLen]

theorem quantMatrixExtension_enc (h : QExt) (hw : h.WF) (s : VS) (t : Tail)
    (ht : t.OK (pos + (encQExt h).length)) (hb : s.br = ⟨encQExt h ++ t.bits, pos, stop, later⟩) :
    ∃ q, quantMatrixExtension s = (.ok (), { s with br := t.after (pos + (encQExt h).length) stop later, qm := q }) ∧
      q.m0 = latest s.qm.m0 [h.intra] ∧ q.m1 = latest s.qm.m1 [h.nonIntra] ∧
      q.m2 = latest s.qm.m2 [h.intra, h.chromaIntra] ∧ q.m3 = latest s.qm.m3 [h.nonIntra, h.chromaNonIntra] := by
  obtain ⟨h1, h2, h3, h4⟩ := hw
  have hl : (encQExt h).length = 4 + loadLen h.intra + loadLen h.nonIntra + loadLen h.chromaIntra +
      loadLen h.chromaNonIntra := by
    simp only [encQExt, List.length_append, length_bitsOf, length_encLoad _ h1, length_encLoad _ h2,
      length_encLoad _ h3, length_encLoad _ h4]
  rw [hl] at ht ⊢
  simp only [encQExt, List.append_assoc] at hb
  have e0 : Go.ignoreErr (VS.lift (extensionID quantMatrixExtensionID)) s =
      (.ok (), { s with br := ⟨encLoad h.intra ++ (encLoad h.nonIntra ++ (encLoad h.chromaIntra ++
        (encLoad h.chromaNonIntra ++ t.bits))), pos + 4, stop, later⟩ }) := by
    unfold Go.ignoreErr
    rw [lift_ok (by rw [hb]; exact extensionID_bits 3 (by decide))]
  unfold quantMatrixExtension
  rw [Go.bind_ok e0, Go.bind_ok (loadMatrix_enc _ _ h1 _ rfl), Go.bind_ok (loadMatrix_enc _ _ h2 _ rfl),
    Go.bind_ok (loadMatrix_enc _ _ h3 _ rfl), Go.bind_ok (loadMatrix_enc _ _ h4 _ rfl)]
  refine ⟨_, lift_ok ?_, ?_⟩
  · have hpos : pos + 4 + loadLen h.intra + loadLen h.nonIntra + loadLen h.chromaIntra + loadLen h.chromaNonIntra =
        pos + (4 + loadLen h.intra + loadLen h.nonIntra + loadLen h.chromaIntra + loadLen h.chromaNonIntra) := by
      omega
    simp only [hpos]
    exact nextStartCode_tail t ht
  · obtain ⟨a, b, c, d⟩ := h
    cases a <;> cases b <;> cases c <;> cases d <;> exact ⟨rfl, rfl, rfl, rfl⟩

end

/-! ### exact behaviour of `next_start_code` -/

theorem prefix1_length : prefix1.length = 24 := rfl

theorem nsc_step (f : Nat) (s : BR) :
    nextStartCodeLoop (f + 1) s =
      if s.bits.length < 24 then (.err s.failErr, s.failTo)
      else if s.bits.take 24 = prefix1 then (.ok (), s)
      else if s.bits.take 8 = zeros 8 then nextStartCodeLoop f (s.adv 8)
      else (.err .unexpectedNonZeroByte, s.adv 8) := by
  by_cases h : s.bits.length < 24
  · rw [if_pos h, nextStartCodeLoop, Go.bind_err (BR.peek_short h)]
  · rw [if_neg h, nextStartCodeLoop, Go.bind_ok (BR.peek_ok (by omega))]
    have hl : (s.bits.take 24).length = 24 := by rw [List.length_take]; omega
    have hl8 : (s.bits.take 8).length = 8 := by rw [List.length_take]; omega
    have e : natOfBits (s.bits.take 24) = startCodePrefix ↔ s.bits.take 24 = prefix1 := by
      constructor
      · intro h'; rw [← bitsOf_natOfBits' hl, h', prefix1_eq]
      · intro h'; rw [h']; decide
    have e8 : natOfBits (s.bits.take 8) = 0 ↔ s.bits.take 8 = zeros 8 := by
      constructor
      · intro h'; rw [← bitsOf_natOfBits' hl8, h', bitsOf_zero]
      · intro h'; rw [h', natOfBits_zeros]
    by_cases hp : s.bits.take 24 = prefix1
    · rw [if_pos (e.mpr hp), if_pos hp]; rfl
    · rw [if_neg (fun x => hp (e.mp x)), if_neg hp, Go.bind_ok (BR.read_ok (by omega))]
      by_cases h8 : s.bits.take 8 = zeros 8
      · rw [if_pos (e8.mpr h8), if_pos h8]
      · rw [if_neg (fun x => h8 (e8.mp x)), if_neg h8]; rfl

/-- outcomes of the scan for a start code prefix -/
inductive NscResult (s : BR) : Res Unit × BR → Prop where
  | found (k : Nat) (r : List Bool) (h : s.bits = zeros (8 * k) ++ (prefix1 ++ r)) :
      NscResult s (.ok (), s.adv (8 * k))
  | nonzero (k : Nat) (b r : List Bool) (hb : b.length = 8) (hz : b ≠ zeros 8) (hr : 16 ≤ r.length)
      (h : s.bits = zeros (8 * k) ++ (b ++ r)) : NscResult s (.err .unexpectedNonZeroByte, s.adv (8 * k + 8))
  | ended (k : Nat) (r : List Bool) (hr : r.length < 24)
      (h : s.bits = zeros (8 * k) ++ r) :
      NscResult s (.err (s.adv (8 * k)).failErr, (s.adv (8 * k)).failTo)

theorem adv_adv (s : BR) (j k : Nat) : (s.adv j).adv k = s.adv (j + k) := by
  simp only [BR.adv, List.drop_drop, Nat.add_assoc]
theorem adv_zero (s : BR) : s.adv 0 = s := rfl

theorem zeros_add (a b : Nat) : zeros (a + b) = zeros a ++ zeros b := by
  simp only [zeros, List.replicate_append_replicate]

theorem nscLoop_result : ∀ (f : Nat) (s : BR), s.bits.length < 8 * f + 8 → NscResult s (nextStartCodeLoop (f + 1) s) := by
  intro f
  induction f with
  | zero =>
    intro s hs
    rw [nsc_step, if_pos (by omega)]
    exact NscResult.ended 0 s.bits (by omega) (by simp [zeros])
  | succ f ih =>
    intro s hs
    rw [nsc_step]
    split
    · exact NscResult.ended 0 s.bits (by omega) (by simp [zeros])
    · split
      · rename_i h1 h2
        refine NscResult.found 0 (s.bits.drop 24) ?_
        rw [← h2, List.take_append_drop]; simp [zeros]
      · split
        · rename_i h1 h2 h3
          have := ih (s.adv 8) (by simp only [BR.adv, List.length_drop]; omega)
          have e : s.bits = zeros 8 ++ (s.adv 8).bits := by rw [← h3]; exact (List.take_append_drop 8 s.bits).symm
          have e' : ∀ k x, (s.adv 8).bits = zeros (8 * k) ++ x → s.bits = zeros (8 * (k + 1)) ++ x := by
            intro k x hx
            rw [e, hx, ← List.append_assoc, ← zeros_add]
            congr 2; omega
          generalize nextStartCodeLoop (f + 1) (s.adv 8) = res at this ⊢
          cases this with
          | found k r h =>
            rw [adv_adv, show 8 + 8 * k = 8 * (k + 1) by omega]
            exact NscResult.found (k + 1) r (e' k _ h)
          | nonzero k b r hb hz hr h =>
            rw [adv_adv, show 8 + (8 * k + 8) = 8 * (k + 1) + 8 by omega]
            exact NscResult.nonzero (k + 1) b r hb hz hr (e' k _ h)
          | ended k r hr h =>
            rw [adv_adv, show 8 + 8 * k = 8 * (k + 1) by omega]
            exact NscResult.ended (k + 1) r hr (e' k _ h)
        · rename_i h1 h2 h3
          refine NscResult.nonzero 0 (s.bits.take 8) (s.bits.drop 8) (by rw [List.length_take]; omega) h3
            (by rw [List.length_drop]; omega) ?_
          simp [zeros]

theorem nextStartCode_result (s : BR) : NscResult (s.adv (padding s.pos)) (nextStartCode s) := by
  unfold nextStartCode
  rw [Go.bind_ok (alignIfNeeded_eq s)]
  exact nscLoop_result _ _ (by omega)

/-- the decomposition of a stream into zero bytes and a prefix is unique -/
theorem zeros_prefix_unique {k k' : Nat} {r r' : List Bool}
    (h : zeros (8 * k) ++ (prefix1 ++ r) = zeros (8 * k') ++ (prefix1 ++ r')) : k = k' ∧ r = r' := by
  have e : ∀ (a : Nat) (x : List Bool), zeros (8 * a) ++ (prefix1 ++ x) = zeros (8 * a + 23) ++ (true :: x) := by
    intro a x; simp only [prefix1, zeros_add, List.append_assoc, List.cons_append, List.nil_append]
  rw [e, e] at h
  have key : ∀ (a b : Nat) (x y : List Bool), zeros a ++ (true :: x) = zeros b ++ (true :: y) → a = b ∧ x = y := by
    intro a
    induction a with
    | zero =>
      intro b x y h
      cases b with
      | zero => simp [zeros] at h; exact ⟨rfl, h⟩
      | succ b => simp [zeros, List.replicate_succ] at h
    | succ a ih =>
      intro b x y h
      cases b with
      | zero => simp [zeros, List.replicate_succ] at h
      | succ b =>
        simp only [zeros, List.replicate_succ, List.cons_append, List.cons.injEq, true_and] at h
        obtain ⟨h1, h2⟩ := ih b x y h
        exact ⟨by omega, h2⟩
  obtain ⟨h1, h2⟩ := key _ _ _ _ h
  exact ⟨by omega, h2⟩

/-! ### exact behaviour of `AlignTo` -/

theorem alignTo_step (c f : Nat) (hc : c < 2 ^ 32) (s : BR) :
    alignToLoop c (f + 1) s =
      if s.bits.length < 32 then (.err s.failErr, s.failTo)
      else if s.bits.take 32 = bitsOf 32 c then (.ok (), s)
      else alignToLoop c f (s.adv 8) := by
  by_cases h : s.bits.length < 32
  · rw [if_pos h, alignToLoop, Go.bind_err (BR.peek_short h)]
  · rw [if_neg h, alignToLoop, Go.bind_ok (BR.peek_ok (by omega))]
    have hl : (s.bits.take 32).length = 32 := by rw [List.length_take]; omega
    have e : natOfBits (s.bits.take 32) = c ↔ s.bits.take 32 = bitsOf 32 c := by
      constructor
      · intro h'; rw [← bitsOf_natOfBits' hl, h']
      · intro h'; rw [h', natOfBits_bitsOf_of_lt hc]
    by_cases hp : s.bits.take 32 = bitsOf 32 c
    · rw [if_pos (e.mpr hp), if_pos hp]; rfl
    · rw [if_neg (fun x => hp (e.mp x)), if_neg hp, Go.bind_ok (BR.skip_ok (by omega))]

/-- outcomes of the search for a code -/
inductive AlignResult (c : Nat) (s : BR) : Res Unit × BR → Prop where
  | found (k : Nat) (h : (s.bits.drop (8 * k)).take 32 = bitsOf 32 c)
      (first : ∀ j < k, (s.bits.drop (8 * j)).take 32 ≠ bitsOf 32 c) : AlignResult c s (.ok (), s.adv (8 * k))
  | ended (k : Nat) (h : s.bits.length < 8 * k + 32)
      (none : ∀ j, (s.bits.drop (8 * j)).take 32 ≠ bitsOf 32 c) :
      AlignResult c s (.err (s.adv (8 * k)).failErr, (s.adv (8 * k)).failTo)

theorem short_ne (c : Nat) {l : List Bool} (h : l.length < 32) : l.take 32 ≠ bitsOf 32 c := by
  intro e
  have := congrArg List.length e
  rw [List.length_take, length_bitsOf] at this
  omega

theorem alignToLoop_result (c : Nat) (hc : c < 2 ^ 32) : ∀ (f : Nat) (s : BR), s.bits.length < 8 * f + 8 →
    AlignResult c s (alignToLoop c (f + 1) s) := by
  have ended0 : ∀ s : BR, s.bits.length < 32 → AlignResult c s (.err s.failErr, s.failTo) := by
    intro s h
    refine AlignResult.ended 0 (by omega) (fun j => short_ne c ?_)
    rw [List.length_drop]; omega
  intro f
  induction f with
  | zero =>
    intro s hs
    rw [alignTo_step c 0 hc, if_pos (by omega)]
    exact ended0 s (by omega)
  | succ f ih =>
    intro s hs
    rw [alignTo_step c _ hc]
    split
    · exact ended0 s (by omega)
    · split
      · rename_i h1 h2
        exact AlignResult.found 0 h2 (fun j hj => absurd hj (Nat.not_lt_zero _))
      · rename_i h1 h2
        have := ih (s.adv 8) (by simp only [BR.adv, List.length_drop]; omega)
        have hd : ∀ j, (s.adv 8).bits.drop (8 * j) = s.bits.drop (8 * (j + 1)) := by
          intro j
          simp only [BR.adv, List.drop_drop]
          congr 1; omega
        generalize alignToLoop c (f + 1) (s.adv 8) = res at this ⊢
        cases this with
        | found k h first =>
          rw [adv_adv, show 8 + 8 * k = 8 * (k + 1) by omega]
          refine AlignResult.found (k + 1) (by rw [← hd]; exact h) ?_
          intro j hj
          cases j with
          | zero => exact h2
          | succ j => rw [← hd]; exact first j (by omega)
        | ended k h none =>
          rw [adv_adv, show 8 + 8 * k = 8 * (k + 1) by omega]
          refine AlignResult.ended (k + 1) (by simp only [BR.adv, List.length_drop] at h; omega) ?_
          intro j
          cases j with
          | zero => exact h2
          | succ j => rw [← hd]; exact none j

theorem alignTo_result (c : Nat) (hc : c < 2 ^ 32) (s : BR) : AlignResult c (s.adv (padding s.pos)) (alignTo c s) := by
  unfold alignTo
  rw [Go.bind_ok (alignIfNeeded_eq s)]
  exact alignToLoop_result c hc _ _ (by omega)

end Mpeg.Video
