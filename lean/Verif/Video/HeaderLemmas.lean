/-
The header parsers of package video on encoded headers.
-/
import Verif.Video.HeaderModel
import Verif.Video.HeaderSpec
import Verif.PS.Lemmas
import Verif.PS.Total
set_option linter.all false
namespace Mpeg.Video
open Spec

theorem adv_mk (l : List Bool) (pos k : Nat) (stop : Err) (later) :
    (BR.mk l pos stop later).adv k = ⟨l.drop k, pos + k, stop, later⟩ := rfl

theorem natOfBits_zeros (n : Nat) : natOfBits (zeros n) = 0 := by
  induction n with
  | zero => rfl
  | succ n ih => simp only [zeros, List.replicate_succ, natOfBits] at *; simp [ih]

theorem bitsOf_zero (k : Nat) : bitsOf k 0 = zeros k := by
  induction k with
  | zero => rfl
  | succ k ih => simp only [bitsOf, zeros, List.replicate_succ, ih, Nat.zero_testBit]

theorem prefix1_eq : prefix1 = bitsOf 24 1 := by decide

/-- alignment, in closed form -/
theorem alignIfNeeded_eq (s : BR) : alignIfNeeded s = (.ok (), s.adv (padding s.pos)) := by
  unfold alignIfNeeded BR.isAligned BR.align padding
  by_cases h : s.pos % 8 = 0
  · simp [h, BR.adv]
  · simp [h]

section
variable {r : List Bool} {pos : Nat} {stop : Err} {later : List (List Bool × Err)}

theorem startCode_bits (c : Nat) (hc : c < 2 ^ 32) :
    startCode c ⟨bitsOf 32 c ++ r, pos, stop, later⟩ = (.ok (), ⟨r, pos + 32, stop, later⟩) :=
  codeAssert_bits 32 c _ hc
theorem extensionID_bits (c : Nat) (hc : c < 2 ^ 4) :
    extensionID c ⟨bitsOf 4 c ++ r, pos, stop, later⟩ = (.ok (), ⟨r, pos + 4, stop, later⟩) :=
  codeAssert_bits 4 c _ hc

@[simp] theorem markerBit_cons (b : Bool) :
    markerBit ⟨b :: r, pos, stop, later⟩ =
      ((if b then .ok () else .err .missingMarkerBit), ⟨r, pos + 1, stop, later⟩) := by
  unfold markerBit
  rw [Go.bind_ok (BR.read1_cons b)]
  cases b <;> rfl

theorem nscLoop_zeros : ∀ (k fuel pos : Nat), k < fuel →
    nextStartCodeLoop fuel ⟨zeros (8 * k) ++ (prefix1 ++ r), pos, stop, later⟩ =
      (.ok (), ⟨prefix1 ++ r, pos + 8 * k, stop, later⟩)
  | k, 0, pos, h => absurd h (Nat.not_lt_zero _)
  | 0, fuel + 1, pos, h => by
    simp only [zeros, Nat.mul_zero, List.replicate_zero, List.nil_append, nextStartCodeLoop, prefix1_eq]
    rw [Go.bind_ok (BR.peek_bitsOf 24 1), if_pos (by decide)]
    rfl
  | k + 1, fuel + 1, pos, h => by
    have e : zeros (8 * (k + 1)) = zeros 8 ++ zeros (8 * k) := by
      simp only [zeros, List.replicate_append_replicate]; congr 1; omega
    have e2 : ∃ t : List Bool, zeros (8 * (k + 1)) ++ (prefix1 ++ r) = zeros 24 ++ t := by
      match k with
      | 0 => exact ⟨zeros 7 ++ [true] ++ r, by
          simp only [prefix1, zeros, ← List.append_assoc, List.replicate_append_replicate]⟩
      | 1 => exact ⟨zeros 15 ++ [true] ++ r, by
          simp only [prefix1, zeros, ← List.append_assoc, List.replicate_append_replicate]⟩
      | k + 2 => exact ⟨zeros (8 * k) ++ (prefix1 ++ r), by
          rw [show 8 * (k + 2 + 1) = 24 + 8 * k by omega]
          simp only [zeros, ← List.replicate_append_replicate, List.append_assoc]⟩
    obtain ⟨t, e2⟩ := e2
    simp only [nextStartCodeLoop]
    have hp : BR.peek 24 ⟨zeros (8 * (k + 1)) ++ (prefix1 ++ r), pos, stop, later⟩ =
        (.ok 0, ⟨zeros (8 * (k + 1)) ++ (prefix1 ++ r), pos, stop, later⟩) := by
      rw [e2, ← bitsOf_zero 24]; exact BR.peek_bitsOf 24 0
    rw [Go.bind_ok hp, if_neg (by decide), e, List.append_assoc, ← bitsOf_zero 8, Go.bind_ok (BR.read_bitsOf 8 0),
      if_pos (by decide), nscLoop_zeros k fuel (pos + 8) (by omega)]
    simp only [Prod.mk.injEq, BR.mk.injEq, true_and, and_true]; omega

theorem nextStartCode_tail (t : Tail) (h : t.OK pos) :
    nextStartCode ⟨t.bits, pos, stop, later⟩ = (.ok (), t.after pos stop later) := by
  unfold nextStartCode
  rw [Go.bind_ok (alignIfNeeded_eq _)]
  unfold nextStartCodeScan
  simp only [adv_mk, Tail.bits]
  unfold Tail.OK at h
  rw [← h, List.drop_append_of_le_length (Nat.le_refl _), List.drop_length, List.nil_append,
    nscLoop_zeros]
  · rfl
  · simp only [List.length_append, zeros, List.length_replicate]; omega

theorem readBytes_enc : ∀ (l : List Nat) (pos : Nat), (∀ x ∈ l, x < 256) →
    readBytes l.length ⟨l.flatMap (bitsOf 8) ++ r, pos, stop, later⟩ =
      (.ok l, ⟨r, pos + 8 * l.length, stop, later⟩)
  | [], pos, h => rfl
  | x :: l, pos, h => by
    simp only [List.length_cons, readBytes, List.flatMap_cons, List.append_assoc]
    rw [Go.bind_ok (BR.read_bitsOf 8 x), Go.bind_ok (readBytes_enc l (pos + 8) (fun y hy => h y (List.mem_cons_of_mem _ hy))),
      Go.pure_apply, Nat.mod_eq_of_lt (show x < 2 ^ 8 from h x (List.mem_cons_self ..))]
    simp only [Prod.mk.injEq, BR.mk.injEq, true_and, and_true]; omega

theorem readMatrix_enc (m : Mat) (h : m.WF) :
    readMatrix ⟨encMat m ++ r, pos, stop, later⟩ = (.ok m, ⟨r, pos + 512, stop, later⟩) := by
  have := readBytes_enc (r := r) (stop := stop) (later := later) m pos h.2
  rw [h.1] at this
  exact this

theorem length_encMat (m : Mat) : (encMat m).length = 8 * m.length := by
  unfold encMat
  induction m with
  | nil => rfl
  | cons x m ih => simp only [List.flatMap_cons, List.length_append, length_bitsOf, ih, List.length_cons]; omega

/-- length of an optional matrix with its flag -/
def loadLen : Option Mat → Nat
  | none => 1
  | some _ => 513

theorem length_encLoad (m : Option Mat) (h : optWF m) : (encLoad m).length = loadLen m := by
  cases m with
  | none => rfl
  | some m =>
    have := (h m rfl).1
    simp only [encLoad, loadLen, List.length_cons, length_encMat, this]

def loadBits : Option Mat → List Bool
  | none => []
  | some m => encMat m

theorem readFlag_enc (m : Option Mat) :
    BR.read1 ⟨encLoad m ++ r, pos, stop, later⟩ =
      (.ok m.isSome, ⟨loadBits m ++ r, pos + 1, stop, later⟩) := by
  cases m <;> simp [encLoad, loadBits, BR.read1_cons]

theorem optMatrix_enc (d : Matrix) (m : Option Mat) (h : optWF m) {pos' : Nat} (hp : pos' = pos + 1) :
    Go.opt m.isSome d readMatrix ⟨loadBits m ++ r, pos', stop, later⟩ =
      (.ok (m.getD d), ⟨r, pos + loadLen m, stop, later⟩) := by
  subst hp
  cases m with
  | none => rfl
  | some m =>
    simp only [Option.isSome_some, Go.opt_true, loadBits, readMatrix_enc m (h m rfl), Option.getD_some, loadLen]

/-! ### sequence header -/

def viewSeq (h : Seq) : SequenceHeader :=
  { horizontalSizeValue := h.width, verticalSizeValue := h.height, aspectRatioInformation := h.aspect,
    frameRateCode := h.rate, bitRateValue := h.bitRate, vbvBufferSizeValue := h.vbv,
    constrainedParametersFlag := h.constrained, loadIntra := h.intra.isSome, loadNonIntra := h.nonIntra.isSome,
    intra := h.intra.getD zeroMatrix, nonIntra := h.nonIntra.getD zeroMatrix }

theorem length_encSeq (h : Seq) (hw : h.WF) : (encSeq h).length = 94 + loadLen h.intra + loadLen h.nonIntra := by
  obtain ⟨_, _, _, _, _, _, h7, h8⟩ := hw
  simp only [encSeq, List.length_append, length_bitsOf, List.length_cons, List.length_nil, length_encLoad _ h7,
    length_encLoad _ h8]

theorem readSequenceHeader_enc (h : Seq) (hw : h.WF) (t : Tail) (ht : t.OK (pos + (encSeq h).length)) :
    readSequenceHeader ⟨encSeq h ++ t.bits, pos, stop, later⟩ =
      (.ok (viewSeq h), t.after (pos + (encSeq h).length) stop later) := by
  have hl := length_encSeq h hw
  rw [hl] at ht ⊢
  obtain ⟨h1, h2, h3, h4, h5, h6, h7, h8⟩ := hw
  unfold readSequenceHeader
  simp only [encSeq, List.append_assoc, List.cons_append, List.nil_append]
  rw [Go.bind_ok (startCode_bits _ (by decide)), Go.bind_ok (BR.read_bitsOf ..), Go.bind_ok (BR.read_bitsOf ..),
    Go.bind_ok (BR.read_bitsOf ..), Go.bind_ok (BR.read_bitsOf ..), Go.bind_ok (BR.read_bitsOf ..),
    Go.bind_ok (markerBit_cons true), Go.bind_ok (BR.read_bitsOf ..), Go.bind_ok (BR.read1_cons _),
    Go.bind_ok (readFlag_enc _), Go.bind_ok (optMatrix_enc _ _ h7 rfl), Go.bind_ok (readFlag_enc _),
    Go.bind_ok (optMatrix_enc _ _ h8 rfl)]
  have hpos : pos + 32 + 12 + 12 + 4 + 4 + 18 + 1 + 10 + 1 + loadLen h.intra + loadLen h.nonIntra =
      pos + (94 + loadLen h.intra + loadLen h.nonIntra) := by omega
  rw [hpos, Go.bind_ok (nextStartCode_tail t ht), Go.pure_apply, Nat.mod_eq_of_lt h1, Nat.mod_eq_of_lt h2,
    Nat.mod_eq_of_lt h3, Nat.mod_eq_of_lt h4, Nat.mod_eq_of_lt h5, Nat.mod_eq_of_lt h6]
  rfl

/-! ### sequence extension -/

def viewSeqExt (h : SeqExt) : SequenceExtension :=
  { profileAndLevel := h.profile, progressiveSequence := h.progressive, chromaFormat := h.chroma,
    horizontalSizeExtension := h.widthExt, verticalSizeExtension := h.heightExt, bitRateExtension := h.bitRateExt,
    vbvBufferSizeExtension := h.vbvExt, lowDelay := h.lowDelay, frameRateExtensionN := h.rateN,
    frameRateExtensionD := h.rateD }

theorem length_encSeqExt (h : SeqExt) : (encSeqExt h).length = 80 := by
  simp only [encSeqExt, List.length_append, length_bitsOf, List.length_cons, List.length_nil]

theorem readSequenceExtension_enc (h : SeqExt) (hw : h.WF) (hm : h.marker = true) :
    readSequenceExtension ⟨encSeqExt h ++ r, pos, stop, later⟩ =
      (.ok (viewSeqExt h), ⟨r, pos + 80, stop, later⟩) := by
  obtain ⟨h1, h2, h3, h4, h5, h6, h7, h8, h9, h10⟩ := hw
  unfold readSequenceExtension
  simp only [encSeqExt, List.append_assoc, List.cons_append, List.nil_append, hm]
  rw [Go.bind_ok (startCode_bits _ (by decide)), Go.bind_ok (extensionID_bits _ (by decide)),
    Go.bind_ok (BR.read_bitsOf ..), Go.bind_ok (BR.read_bitsOf ..),
    Go.bind_ok (BR.read_bitsOf ..), Go.bind_ok (BR.read_bitsOf ..), Go.bind_ok (BR.read_bitsOf ..),
    Go.bind_ok (BR.read_bitsOf ..),
    Go.bind_ok (markerBit_cons true), Go.bind_ok (BR.read_bitsOf ..), Go.bind_ok (BR.read_bitsOf ..),
    Go.bind_ok (BR.read_bitsOf ..), Go.bind_ok (BR.read_bitsOf ..), Go.pure_apply,
    Nat.mod_eq_of_lt h1, Nat.mod_eq_of_lt (show h.progressive < 2 ^ 1 from h2),
    Nat.mod_eq_of_lt (show h.chroma < 2 ^ 2 from h3), Nat.mod_eq_of_lt (show h.widthExt < 2 ^ 2 from h4),
    Nat.mod_eq_of_lt (show h.heightExt < 2 ^ 2 from h5), Nat.mod_eq_of_lt h6, Nat.mod_eq_of_lt h7,
    Nat.mod_eq_of_lt (show h.lowDelay < 2 ^ 1 from h8), Nat.mod_eq_of_lt (show h.rateN < 2 ^ 2 from h9),
    Nat.mod_eq_of_lt h10]
  rfl

theorem readSequenceExtension_marker (h : SeqExt) (hm : h.marker = false) :
    (readSequenceExtension ⟨encSeqExt h ++ r, pos, stop, later⟩).1 = .err .missingMarkerBit := by
  unfold readSequenceExtension
  simp only [encSeqExt, List.append_assoc, List.cons_append, List.nil_append, hm]
  rw [Go.bind_ok (startCode_bits _ (by decide)), Go.bind_ok (extensionID_bits _ (by decide)),
    Go.bind_ok (BR.read_bitsOf ..), Go.bind_ok (BR.read_bitsOf ..),
    Go.bind_ok (BR.read_bitsOf ..), Go.bind_ok (BR.read_bitsOf ..), Go.bind_ok (BR.read_bitsOf ..),
    Go.bind_ok (BR.read_bitsOf ..),
    Go.bind_err (markerBit_cons false)]

/-! ### group of pictures header -/

theorem bitsOf_add_mul (j k a b : Nat) (hb : b < 2 ^ k) : bitsOf (j + k) (a * 2 ^ k + b) = bitsOf j a ++ bitsOf k b := by
  rw [bitsOf_append]
  congr 1
  · rw [Nat.mul_comm, Nat.mul_add_div (Nat.two_pow_pos k), Nat.div_eq_of_lt hb, Nat.add_zero]
  · rw [← bitsOf_mod k (a * 2 ^ k + b) k (Nat.le_refl _), Nat.add_comm, Nat.add_mul_mod_self_right, Nat.mod_eq_of_lt hb]

/-- the 25 bit time code -/
def timeOf (h : GOP) : Nat :=
  ((((h.dropFrame.toNat * 2 ^ 5 + h.hours) * 2 ^ 6 + h.minutes) * 2 ^ 1 + h.marker.toNat) * 2 ^ 6 + h.seconds) * 2 ^ 6 +
    h.pictures

theorem bitsOf_toNat (b : Bool) : bitsOf 1 b.toNat = [b] := by cases b <;> rfl

theorem timeOf_bits (h : GOP) (hw : h.WF) :
    [h.dropFrame] ++ bitsOf 5 h.hours ++ bitsOf 6 h.minutes ++ [h.marker] ++
      bitsOf 6 h.seconds ++ bitsOf 6 h.pictures = bitsOf 25 (timeOf h) := by
  obtain ⟨h1, h2, h3, h4⟩ := hw
  unfold timeOf
  rw [bitsOf_add_mul 19 6 _ _ h4, bitsOf_add_mul 13 6 _ _ h3,
    bitsOf_add_mul 12 1 _ _ (by cases h.marker <;> decide), bitsOf_add_mul 6 6 _ _ h2, bitsOf_add_mul 1 5 _ _ h1,
    bitsOf_toNat, bitsOf_toNat]

theorem timeOf_lt (h : GOP) (hw : h.WF) : timeOf h < 2 ^ 25 := by
  obtain ⟨h1, h2, h3, h4⟩ := hw
  unfold timeOf
  have := Bool.toNat_le h.dropFrame
  have := Bool.toNat_le h.marker
  omega

theorem length_encGOP (h : GOP) : (encGOP h).length = 59 := by
  simp only [encGOP, List.length_append, length_bitsOf, List.length_cons, List.length_nil]

theorem readGOPHeader_enc (h : GOP) (hw : h.WF) (t : Tail) (ht : t.OK (pos + (encGOP h).length)) :
    readGOPHeader ⟨encGOP h ++ t.bits, pos, stop, later⟩ =
      (.ok ⟨timeOf h, h.closed, h.broken⟩, t.after (pos + (encGOP h).length) stop later) := by
  rw [length_encGOP] at ht ⊢
  unfold readGOPHeader encGOP
  rw [timeOf_bits h hw]
  simp only [List.append_assoc, List.cons_append, List.nil_append]
  rw [Go.bind_ok (startCode_bits _ (by decide)), Go.bind_ok (BR.read_bitsOf ..), Go.bind_ok (BR.read1_cons _),
    Go.bind_ok (BR.read1_cons _), Go.bind_ok (nextStartCode_tail t ht), Go.pure_apply,
    Nat.mod_eq_of_lt (timeOf_lt h hw)]

theorem time_eq (h : GOP) (hw : h.WF) (c b : Bool) :
    (GOPHeader.mk (timeOf h) c b).time = ⟨h.dropFrame, h.hours, h.minutes, h.seconds, h.pictures⟩ := by
  obtain ⟨h1, h2, h3, h4⟩ := hw
  unfold GOPHeader.time timeOf
  have hm := Bool.toNat_le h.marker
  have hd := Bool.toNat_le h.dropFrame
  simp only [Nat.shiftRight_eq_div_pow, show (0x1F : Nat) = 2 ^ 5 - 1 from rfl, show (0x3F : Nat) = 2 ^ 6 - 1 from rfl,
    Nat.and_two_pow_sub_one_eq_mod, TimeCode.mk.injEq]
  refine ⟨?_, by omega, by omega, by omega, by omega⟩
  have : ((((((h.dropFrame.toNat * 2 ^ 5 + h.hours) * 2 ^ 6 + h.minutes) * 2 ^ 1 + h.marker.toNat) * 2 ^ 6 + h.seconds) * 2 ^ 6 +
    h.pictures) / 2 ^ 24) = h.dropFrame.toNat := by omega
  rw [this]
  cases h.dropFrame <;> rfl

/-! ### picture header -/

theorem extraLoop_enc : ∀ (l : List Nat) (fuel pos : Nat), (∀ x ∈ l, x < 256) → l.length < fuel →
    extraInformationLoop fuel ⟨l.flatMap (fun x => true :: bitsOf 8 x) ++ (false :: r), pos, stop, later⟩ =
      (.ok l, ⟨false :: r, pos + 9 * l.length, stop, later⟩)
  | l, 0, pos, h, hf => absurd hf (Nat.not_lt_zero _)
  | [], f + 1, pos, h, hf => by
    have : BR.peek 1 ⟨false :: r, pos, stop, later⟩ = (.ok 0, ⟨false :: r, pos, stop, later⟩) :=
      BR.peek_bitsOf 1 0
    simp only [List.flatMap_nil, List.nil_append, extraInformationLoop]
    rw [Go.bind_ok this]
    rfl
  | x :: l, f + 1, pos, h, hf => by
    have hx := h x (List.mem_cons_self ..)
    simp only [List.flatMap_cons, List.append_assoc, List.cons_append, extraInformationLoop]
    generalize hr : bitsOf 8 x ++ (l.flatMap (fun x => true :: bitsOf 8 x) ++ (false :: r)) = r'
    have e1 : BR.peek 1 ⟨true :: r', pos, stop, later⟩ = (.ok 1, ⟨true :: r', pos, stop, later⟩) :=
      BR.peek_bitsOf 1 1
    have e2 : BR.skip 1 ⟨true :: r', pos, stop, later⟩ = (.ok (), ⟨r', pos + 1, stop, later⟩) :=
      BR.skip_bitsOf 1 1
    rw [Go.bind_ok e1, if_pos rfl, Go.bind_ok e2, ← hr, Go.bind_ok (BR.read_bitsOf 8 x),
      Go.bind_ok (extraLoop_enc l f (pos + 1 + 8) (fun e he => h e (List.mem_cons_of_mem _ he))
        (by simp only [List.length_cons] at hf; omega)), Go.pure_apply, Nat.mod_eq_of_lt (show x < 2 ^ 8 from hx)]
    simp only [List.length_cons, Prod.mk.injEq, BR.mk.injEq, true_and, and_true]
    omega

theorem length_extra (l : List Nat) : (l.flatMap (fun x => true :: bitsOf 8 x)).length = 9 * l.length := by
  induction l with
  | nil => rfl
  | cons x l ih => simp only [List.flatMap_cons, List.length_append, List.length_cons, length_bitsOf, ih]; omega

theorem readExtra_enc (l : List Nat) (h : ∀ x ∈ l, x < 256) :
    readExtraInformation ⟨encExtra l ++ r, pos, stop, later⟩ =
      (.ok l, ⟨false :: r, pos + 9 * l.length, stop, later⟩) := by
  unfold readExtraInformation encExtra
  simp only [List.append_assoc, List.cons_append, List.nil_append]
  refine extraLoop_enc l _ pos h ?_
  simp only [List.length_append, length_extra]; omega

def viewPic (h : Pic) : PictureHeader :=
  match h.kind with
  | .other c => ⟨h.temporal, c, h.vbvDelay, 0, 0, 0, 0, h.extra⟩
  | .p a b => ⟨h.temporal, 2, h.vbvDelay, a, b, 0, 0, h.extra⟩
  | .b a b c d => ⟨h.temporal, 3, h.vbvDelay, a, b, c, d, h.extra⟩

theorem skip_false : BR.skip 1 ⟨false :: r, pos, stop, later⟩ = (.ok (), ⟨r, pos + 1, stop, later⟩) :=
  BR.skip_bitsOf 1 0

theorem readPictureHeader_enc (h : Pic) (hw : h.WF) :
    readPictureHeader ⟨encPic h ++ r, pos, stop, later⟩ =
      (.ok (viewPic h), ⟨r, pos + (encPic h).length, stop, later⟩) := by
  obtain ⟨h1, h2, h3, h4⟩ := hw
  obtain ⟨tr, kind, vbv, extra⟩ := h
  unfold readPictureHeader viewPic
  simp only at *
  have hle : (encExtra extra).length = 9 * extra.length + 1 := by
    simp only [encExtra, List.length_append, length_extra, List.length_cons, List.length_nil]
  cases kind with
  | other c =>
    obtain ⟨h5, h6, h7⟩ := h2
    simp only [encPic, List.append_assoc, PicKind.enc, PicKind.code, List.nil_append]
    rw [Go.bind_ok (startCode_bits _ (by decide)), Go.bind_ok (BR.read_bitsOf ..), Go.bind_ok (BR.read_bitsOf ..),
      Go.bind_ok (BR.read_bitsOf ..), Nat.mod_eq_of_lt (show c < 2 ^ 3 from h5)]
    have e1 : (c == pFrame || c == bFrame) = false := by simp [h6, h7]
    have e2 : (c == bFrame) = false := by simp [h7]
    simp only [e1, Go.opt_false]
    simp only [e2, Go.opt_false]
    rw [Go.bind_ok (Go.pure_apply ..), Go.bind_ok (Go.pure_apply ..), Go.bind_ok (Go.pure_apply ..),
      Go.bind_ok (Go.pure_apply ..), Go.bind_ok (readExtra_enc extra h4), Go.bind_ok skip_false, Go.pure_apply,
      Nat.mod_eq_of_lt h1, Nat.mod_eq_of_lt h3]
    simp only [List.length_append, length_bitsOf, hle, Prod.mk.injEq, BR.mk.injEq, true_and, and_true]
    omega
  | p a b =>
    obtain ⟨h5, h6⟩ := h2
    simp only [encPic, List.append_assoc, PicKind.enc, PicKind.code, List.nil_append]
    rw [Go.bind_ok (startCode_bits _ (by decide)), Go.bind_ok (BR.read_bitsOf ..), Go.bind_ok (BR.read_bitsOf ..),
      Go.bind_ok (BR.read_bitsOf ..)]
    have e1 : ((2 : Nat) % 2 ^ 3 == pFrame || (2 : Nat) % 2 ^ 3 == bFrame) = true := by decide
    have e2 : ((2 : Nat) % 2 ^ 3 == bFrame) = false := by decide
    simp only [e1, Go.opt_false, Go.opt_true]
    simp only [e2, Go.opt_false, Go.opt_true]
    rw [Go.bind_ok (BR.read_bitsOf ..), Go.bind_ok (BR.read_bitsOf ..), Go.bind_ok (Go.pure_apply ..),
      Go.bind_ok (Go.pure_apply ..), Go.bind_ok (readExtra_enc extra h4), Go.bind_ok skip_false, Go.pure_apply,
      Nat.mod_eq_of_lt h1, Nat.mod_eq_of_lt h3, Nat.mod_eq_of_lt (show a < 2 ^ 1 from h5),
      Nat.mod_eq_of_lt (show b < 2 ^ 3 from h6)]
    simp only [List.length_append, length_bitsOf, hle, Prod.mk.injEq, BR.mk.injEq, true_and, and_true]
    omega
  | b a b c d =>
    obtain ⟨h5, h6, h7, h8⟩ := h2
    simp only [encPic, List.append_assoc, PicKind.enc, PicKind.code, List.nil_append]
    rw [Go.bind_ok (startCode_bits _ (by decide)), Go.bind_ok (BR.read_bitsOf ..), Go.bind_ok (BR.read_bitsOf ..),
      Go.bind_ok (BR.read_bitsOf ..)]
    have e1 : ((3 : Nat) % 2 ^ 3 == pFrame || (3 : Nat) % 2 ^ 3 == bFrame) = true := by decide
    have e2 : ((3 : Nat) % 2 ^ 3 == bFrame) = true := by decide
    simp only [e1, Go.opt_false, Go.opt_true]
    simp only [e2, Go.opt_false, Go.opt_true]
    rw [Go.bind_ok (BR.read_bitsOf ..), Go.bind_ok (BR.read_bitsOf ..), Go.bind_ok (BR.read_bitsOf ..),
      Go.bind_ok (BR.read_bitsOf ..), Go.bind_ok (readExtra_enc extra h4), Go.bind_ok skip_false, Go.pure_apply,
      Nat.mod_eq_of_lt h1, Nat.mod_eq_of_lt h3, Nat.mod_eq_of_lt (show a < 2 ^ 1 from h5),
      Nat.mod_eq_of_lt (show b < 2 ^ 3 from h6), Nat.mod_eq_of_lt (show c < 2 ^ 1 from h7),
      Nat.mod_eq_of_lt (show d < 2 ^ 3 from h8)]
    simp only [List.length_append, length_bitsOf, hle, Prod.mk.injEq, BR.mk.injEq, true_and, and_true]
    omega

end
end Mpeg.Video
