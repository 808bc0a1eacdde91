/-
ISO/IEC 13818-2 syntax of the video headers (clause 6.2), written down independently of the parsers.
-/
import Verif.Base.BR
namespace Mpeg.Video.Spec

/-- number of bits from bit position `n` to the next byte boundary -/
def padding (n : Nat) : Nat := (8 - n % 8) % 8

/-- What a reader sees from the next byte boundary on. -/
def fromBoundary (s : BR) : List Bool := s.bits.drop (padding s.pos)

def zeros (n : Nat) : List Bool := List.replicate n false

/-- the 24 bit start code prefix -/
def prefix1 : List Bool := zeros 23 ++ [true]

/-- `next_start_code()` (5.2.3): bits up to the byte boundary, zero bytes, then a start code prefix and the
rest of the stream. -/
structure Tail where
  pad : List Bool
  stuffing : Nat
  rest : List Bool

def Tail.bits (t : Tail) : List Bool := t.pad ++ (zeros (8 * t.stuffing) ++ (prefix1 ++ t.rest))
/-- the padding fills the byte in which bit position `n` lies -/
def Tail.OK (t : Tail) (n : Nat) : Prop := t.pad.length = padding n
instance (t : Tail) (n : Nat) : Decidable (t.OK n) := by unfold Tail.OK; infer_instance
/-- the reader on the start code prefix after a header that ended at bit position `n` -/
def Tail.after (t : Tail) (n : Nat) (stop : Err) (later : List (List Bool × Err)) : BR :=
  ⟨prefix1 ++ t.rest, n + t.pad.length + 8 * t.stuffing, stop, later⟩

/-! ### sequence header (6.2.2.1) -/

/-- a quantiser matrix as the 64 values in the order of transmission -/
abbrev Mat := List Nat

def Mat.WF (m : Mat) : Prop := m.length = 64 ∧ ∀ x ∈ m, x < 256
instance (m : Mat) : Decidable m.WF := by unfold Mat.WF; infer_instance

def encMat (m : Mat) : List Bool := m.flatMap (bitsOf 8)

/-- a load flag and, if set, the matrix -/
def encLoad : Option Mat → List Bool
  | none => [false]
  | some m => true :: encMat m

def optWF (m : Option Mat) : Prop := ∀ x ∈ m, Mat.WF x
instance (m : Option Mat) : Decidable (optWF m) := by
  unfold optWF; cases m with
  | none => exact isTrue (by simp)
  | some m => exact decidable_of_iff (Mat.WF m) (by simp)

structure Seq where
  width : Nat
  height : Nat
  aspect : Nat
  rate : Nat
  bitRate : Nat
  vbv : Nat
  constrained : Bool
  intra : Option Mat
  nonIntra : Option Mat

def Seq.WF (h : Seq) : Prop :=
  h.width < 2 ^ 12 ∧ h.height < 2 ^ 12 ∧ h.aspect < 2 ^ 4 ∧ h.rate < 2 ^ 4 ∧ h.bitRate < 2 ^ 18 ∧ h.vbv < 2 ^ 10 ∧
  optWF h.intra ∧ optWF h.nonIntra
instance (h : Seq) : Decidable h.WF := by unfold Seq.WF; infer_instance

def encSeq (h : Seq) : List Bool :=
  bitsOf 32 0x1B3 ++ bitsOf 12 h.width ++ bitsOf 12 h.height ++ bitsOf 4 h.aspect ++ bitsOf 4 h.rate ++
  bitsOf 18 h.bitRate ++ [true] ++ bitsOf 10 h.vbv ++ [h.constrained] ++ encLoad h.intra ++ encLoad h.nonIntra

/-- Figure 7-2: the position of the coefficient (or matrix entry) in row `v`, column `u` in the zigzag
scan; the matrices are transmitted in this order (6.3.11). -/
def zigzagRows : List (List Nat) :=
  [[0, 1, 5, 6, 14, 15, 27, 28], [2, 4, 7, 13, 16, 26, 29, 42], [3, 8, 12, 17, 25, 30, 41, 43],
   [9, 11, 18, 24, 31, 40, 44, 53], [10, 19, 23, 32, 39, 45, 52, 54], [20, 22, 33, 38, 46, 51, 55, 60],
   [21, 34, 37, 47, 50, 56, 59, 61], [35, 36, 48, 49, 57, 58, 62, 63]]
def zigzag (v u : Nat) : Nat := (zigzagRows.getD v []).getD u 0

/-- entry `W[v][u]` of a transmitted matrix (6.3.11) -/
def Mat.entry (m : Mat) (v u : Nat) : Nat := m.getD (zigzag v u) 0

/-! ### sequence extension (6.2.2.3) -/

structure SeqExt where
  profile : Nat
  progressive : Nat
  chroma : Nat
  widthExt : Nat
  heightExt : Nat
  bitRateExt : Nat
  marker : Bool
  vbvExt : Nat
  lowDelay : Nat
  rateN : Nat
  rateD : Nat

def SeqExt.WF (h : SeqExt) : Prop :=
  h.profile < 2 ^ 8 ∧ h.progressive < 2 ∧ h.chroma < 4 ∧ h.widthExt < 4 ∧ h.heightExt < 4 ∧ h.bitRateExt < 2 ^ 12 ∧
  h.vbvExt < 2 ^ 8 ∧ h.lowDelay < 2 ∧ h.rateN < 4 ∧ h.rateD < 2 ^ 5
instance (h : SeqExt) : Decidable h.WF := by unfold SeqExt.WF; infer_instance

def encSeqExt (h : SeqExt) : List Bool :=
  bitsOf 32 0x1B5 ++ bitsOf 4 1 ++ bitsOf 8 h.profile ++ bitsOf 1 h.progressive ++ bitsOf 2 h.chroma ++
  bitsOf 2 h.widthExt ++ bitsOf 2 h.heightExt ++ bitsOf 12 h.bitRateExt ++ [h.marker] ++ bitsOf 8 h.vbvExt ++
  bitsOf 1 h.lowDelay ++ bitsOf 2 h.rateN ++ bitsOf 5 h.rateD

/-! ### sequence display extension (6.2.2.4), without its start code -/

structure SeqDisp where
  format : Nat
  colour : Option (Nat × Nat × Nat)
  width : Nat
  height : Nat

def SeqDisp.WF (h : SeqDisp) : Prop :=
  h.format < 8 ∧ (∀ c ∈ h.colour, c.1 < 256 ∧ c.2.1 < 256 ∧ c.2.2 < 256) ∧ h.width < 2 ^ 14 ∧ h.height < 2 ^ 14

def encSeqDisp (h : SeqDisp) : List Bool :=
  bitsOf 4 2 ++ bitsOf 3 h.format ++
  (match h.colour with
   | none => [false]
   | some (a, b, c) => true :: (bitsOf 8 a ++ bitsOf 8 b ++ bitsOf 8 c)) ++
  bitsOf 14 h.width ++ [true] ++ bitsOf 14 h.height

/-! ### group of pictures header (6.2.2.6), time code (Table 6-11) -/

structure GOP where
  dropFrame : Bool
  hours : Nat
  minutes : Nat
  marker : Bool
  seconds : Nat
  pictures : Nat
  closed : Bool
  broken : Bool

def GOP.WF (h : GOP) : Prop := h.hours < 2 ^ 5 ∧ h.minutes < 2 ^ 6 ∧ h.seconds < 2 ^ 6 ∧ h.pictures < 2 ^ 6
instance (h : GOP) : Decidable h.WF := by unfold GOP.WF; infer_instance

def encGOP (h : GOP) : List Bool :=
  bitsOf 32 0x1B8 ++ ([h.dropFrame] ++ bitsOf 5 h.hours ++ bitsOf 6 h.minutes ++ [h.marker] ++
  bitsOf 6 h.seconds ++ bitsOf 6 h.pictures) ++ [h.closed] ++ [h.broken]

/-! ### picture header (6.2.3) -/

inductive PicKind where
  /-- I and D pictures and reserved coding types -/
  | other (code : Nat)
  /-- `full_pel_forward_vector`, `forward_f_code` -/
  | p (fullPel fCode : Nat)
  /-- the forward pair and the backward pair -/
  | b (fullPelF fCodeF fullPelB fCodeB : Nat)
deriving DecidableEq, Repr

def PicKind.code : PicKind → Nat
  | .other c => c
  | .p .. => 2
  | .b .. => 3

def PicKind.WF : PicKind → Prop
  | .other c => c < 8 ∧ c ≠ 2 ∧ c ≠ 3
  | .p x y => x < 2 ∧ y < 8
  | .b x y z w => x < 2 ∧ y < 8 ∧ z < 2 ∧ w < 8
instance (k : PicKind) : Decidable k.WF := by cases k <;> unfold PicKind.WF <;> infer_instance

def PicKind.enc : PicKind → List Bool
  | .other _ => []
  | .p x y => bitsOf 1 x ++ bitsOf 3 y
  | .b x y z w => bitsOf 1 x ++ bitsOf 3 y ++ bitsOf 1 z ++ bitsOf 3 w

structure Pic where
  temporal : Nat
  kind : PicKind
  vbvDelay : Nat
  extra : List Nat

def Pic.WF (h : Pic) : Prop :=
  h.temporal < 2 ^ 10 ∧ h.kind.WF ∧ h.vbvDelay < 2 ^ 16 ∧ ∀ x ∈ h.extra, x < 256
instance (h : Pic) : Decidable h.WF := by unfold Pic.WF; infer_instance

/-- `extra_bit_picture = 1, extra_information_picture` for each byte, then `extra_bit_picture = 0` -/
def encExtra (l : List Nat) : List Bool := l.flatMap (fun x => true :: bitsOf 8 x) ++ [false]

def encPic (h : Pic) : List Bool :=
  bitsOf 32 0x100 ++ bitsOf 10 h.temporal ++ bitsOf 3 h.kind.code ++ bitsOf 16 h.vbvDelay ++ h.kind.enc ++
  encExtra h.extra

/-! ### picture coding extension (6.2.3.1) -/

structure Composite where
  vAxis : Bool
  fieldSequence : Nat
  subCarrier : Bool
  burstAmplitude : Nat
  subCarrierPhase : Nat
deriving DecidableEq, Repr

structure PicExt where
  f00 : Nat
  f01 : Nat
  f10 : Nat
  f11 : Nat
  dcPrecision : Nat
  structure_ : Nat
  topFieldFirst : Bool
  framePredFrameDCT : Nat
  concealment : Bool
  qScaleType : Nat
  intraVLC : Nat
  alternateScan : Nat
  repeatFirstField : Bool
  chroma420 : Bool
  progressive : Bool
  composite : Option Composite
deriving DecidableEq, Repr

def PicExt.WF (h : PicExt) : Prop :=
  h.f00 < 16 ∧ h.f01 < 16 ∧ h.f10 < 16 ∧ h.f11 < 16 ∧ h.dcPrecision < 4 ∧ h.structure_ < 4 ∧
  h.framePredFrameDCT < 2 ∧ h.qScaleType < 2 ∧ h.intraVLC < 2 ∧ h.alternateScan < 2 ∧
  ∀ c ∈ h.composite, c.fieldSequence < 8 ∧ c.burstAmplitude < 128 ∧ c.subCarrierPhase < 256

def encComposite : Option Composite → List Bool
  | none => [false]
  | some c => true :: ([c.vAxis] ++ bitsOf 3 c.fieldSequence ++ [c.subCarrier] ++ bitsOf 7 c.burstAmplitude ++
      bitsOf 8 c.subCarrierPhase)

def encPicExt (h : PicExt) : List Bool :=
  bitsOf 32 0x1B5 ++ bitsOf 4 8 ++ bitsOf 4 h.f00 ++ bitsOf 4 h.f01 ++ bitsOf 4 h.f10 ++ bitsOf 4 h.f11 ++
  bitsOf 2 h.dcPrecision ++ bitsOf 2 h.structure_ ++ [h.topFieldFirst] ++ bitsOf 1 h.framePredFrameDCT ++
  [h.concealment] ++ bitsOf 1 h.qScaleType ++ bitsOf 1 h.intraVLC ++ bitsOf 1 h.alternateScan ++
  [h.repeatFirstField] ++ [h.chroma420] ++ [h.progressive] ++ encComposite h.composite

/-! ### quant matrix extension (6.2.3.2), without its start code -/

structure QExt where
  intra : Option Mat
  nonIntra : Option Mat
  chromaIntra : Option Mat
  chromaNonIntra : Option Mat

def QExt.WF (h : QExt) : Prop := optWF h.intra ∧ optWF h.nonIntra ∧ optWF h.chromaIntra ∧ optWF h.chromaNonIntra
instance (h : QExt) : Decidable h.WF := by unfold QExt.WF; infer_instance

def encQExt (h : QExt) : List Bool :=
  bitsOf 4 3 ++ encLoad h.intra ++ encLoad h.nonIntra ++ encLoad h.chromaIntra ++ encLoad h.chromaNonIntra

/-- the most recently transmitted of a list of optional matrices, oldest first -/
def latest {α : Type} (old : α) : List (Option α) → α
  | [] => old
  | none :: l => latest old l
  | some m :: l => latest m l

/-! ### user data (6.2.2.2) -/

def encUser (d : List Nat) : List Bool := bitsOf 32 0x1B2 ++ d.flatMap (bitsOf 8)

end Mpeg.Video.Spec
