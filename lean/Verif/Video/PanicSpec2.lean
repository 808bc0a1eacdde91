/-
Exactly which bits make the decoder of pictures panic: the languages of `PanicSpec`, with the vectors that the macroblocks before
have left.

The vectors are those of the decoder, which are not always those of the standard: of the vectors of a macroblock with two it
predicts with the first, and a macroblock with one leaves the predictions of the second alone (7.6.3.3 sets both).
-/
import Verif.Video.PanicSpec
namespace Mpeg.Video.Spec

/-! ### predictions -/

/-- The samples needed to predict block `i` of the macroblock at column `addr` of row `row` with the vector `(h, v)` (half samples
included), counted through the lines of the component one behind the other, lie within the component.  (A position left of or to the
right of the picture is one in the line above or below.) -/
def PredFits (W H i row addr : Nat) (h v : Int) : Prop :=
  0 ≤ ((blockY i row : Int) + blockVec i v / 2) * compSize i W + (blockX i addr + blockVec i h / 2) ∧
  ((blockY i row : Int) + blockVec i v / 2 + 7 + blockVec i v % 2) * compSize i W + (blockX i addr + blockVec i h / 2 + 7 + blockVec i h % 2)
    < compSize i W * compSize i H

/-! ### vectors -/

/-- What the macroblocks of a slice leave behind for the vectors of the next: the predictions `pmv r s t` of the components (`r`:
first or second vector; `s`: forward or backward; `t`: horizontal or vertical), the vectors `vec s t` of the last prediction and its
directions. -/
@[ext] structure Vecs where
  pmv : Nat → Nat → Nat → Int
  vec : Nat → Nat → Int
  fwd : Bool
  bwd : Bool

/-- At the start of a slice. -/
def Vecs.zero : Vecs := ⟨fun _ _ _ => 0, fun _ _ => 0, false, false⟩

/-- All predictions and vectors zero; the directions stay. -/
def Vecs.clear (V : Vecs) : Vecs := { V with pmv := fun _ _ _ => 0, vec := fun _ _ => 0 }

/-- 7.6.3.1: `delta` -/
def vecDelta (fCode : Nat) (code : Int) (residual : Nat) : Int :=
  if fCode = 1 ∨ code = 0 then code else code.sign * ((code.natAbs - 1) * mvScale fCode + residual + 1)

/-- 7.6.3.1: the vector is brought into the range from `-16 f` to `16 f - 1`. -/
def vecReduce (fCode : Nat) (x : Int) : Int :=
  let f : Int := mvScale fCode
  let y := if x < -16 * f then x + 32 * f else x
  if y > 16 * f - 1 then y - 32 * f else y

/-- motion_code and motion_residual that make the component `v` out of the prediction `p` -/
inductive PartTo (fCode : Nat) (p v : Int) : List Bool → Prop
  | mk (c r : List Bool) (code : Int) (h : (c, code) ∈ isoMotion)
      (hr : r.length = if fCode ≠ 1 ∧ code ≠ 0 then fCode - 1 else 0)
      (hv : v = vecReduce fCode (p + vecDelta fCode code (natOfBits r))) : PartTo fCode p v (c ++ r)

/-- The components of vector `r s` are `h` and `v`; `q` is the vertical one as a prediction.  The first vector is the one used. -/
def Vecs.store (V : Vecs) (r s : Nat) (h v q : Int) : Vecs :=
  { V with
    pmv := fun r' s' t' => if r' = r ∧ s' = s ∧ t' = 0 then h else if r' = r ∧ s' = s ∧ t' = 1 then q else V.pmv r' s' t'
    vec := fun s' t' => if r = 0 ∧ s' = s ∧ t' = 0 then h else if r = 0 ∧ s' = s ∧ t' = 1 then v else V.vec s' t' }

/-- motion_vector(r, s); in frame pictures the vertical components of field vectors (`halved`) are predicted from half the
prediction. -/
inductive VectorTo (e : PicEnv) (r s : Nat) (halved : Bool) (V : Vecs) : Vecs → List Bool → Prop
  | mk (h v : Int) (a c : List Bool) (ha : PartTo (e.pce.fCode s 0) (V.pmv r s 0) h a)
      (hc : PartTo (e.pce.fCode s 1) (if halved then V.pmv r s 1 / 2 else V.pmv r s 1) v c) :
      VectorTo e r s halved V (V.store r s h v (if halved then v * 2 else v)) (a ++ c)

/-- `n` vectors from vector `r` on, each with its motion_vertical_field_select if there is one. -/
inductive VectorsTo (e : PicEnv) (s : Nat) (select : Bool) : Nat → Nat → Vecs → Vecs → List Bool → Prop
  | nil (r : Nat) (V : Vecs) : VectorsTo e s select 0 r V V []
  | cons (n r : Nat) (V V' V'' : Vecs) (b l m : List Bool) (hb : b.length = if select then 1 else 0)
      (hl : VectorTo e r s (select && e.pce.pictureStructure == 3) V V' l) (t : VectorsTo e s select n (r + 1) V' V'' m) :
      VectorsTo e s select (n + 1) r V V'' (b ++ (l ++ m))

/-- motion_vectors(s) for the motion type `motion`, which is not that of dual prime prediction -/
def MotionTo (e : PicEnv) (motion s : Nat) (V V' : Vecs) (l : List Bool) : Prop :=
  ∃ n select, motionFormat (e.pce.pictureStructure == 3) motion = some (n, select, false) ∧ VectorsTo e s select n 0 V V' l

/-- The vectors are reset by skipped macroblocks of P pictures, ... -/
def Vecs.skip (V : Vecs) (e : PicEnv) (n : Nat) : Vecs := if e.ph.pictureCodingType = 2 ∧ 1 < n then V.clear else V

/-- ... by intra macroblocks without concealment vectors, and by macroblocks without forward vector in P pictures. -/
def Vecs.begin (V : Vecs) (e : PicEnv) (t : MacroblockType) : Vecs :=
  if (t.intra = true ∧ e.pce.concealmentMotionVectors = false) ∨
    (e.ph.pictureCodingType = 2 ∧ t.intra = false ∧ t.forward = false) then V.clear else V

/-- The directions of a macroblock: in P pictures one without vectors is predicted with the vector zero. -/
def Vecs.directions (V : Vecs) (e : PicEnv) (t : MacroblockType) : Vecs :=
  { V with fwd := !t.intra && (e.ph.pictureCodingType == 2 || t.forward), bwd := !t.intra && t.backward }

/-- A macroblock of type `t` up to its coded_block_pattern, with its address increment and kind of transform, from the vectors `V`
to the vectors `V'`. -/
inductive HeadTo (e : PicEnv) (V : Vecs) (t : MacroblockType) (n : Nat) (field : Bool) : Vecs → List Bool → Prop
  | mk (start motion f b mark : List Bool) (V1 V2 : Vecs) (hs : HeadStart e t n field motion start)
      (hF : if t.forward || conceals e t then MotionTo e (motionType e motion) 0 ((V.skip e n).begin e t) V1 f
        else f = [] ∧ V1 = (V.skip e n).begin e t)
      (hB : if t.backward then MotionTo e (motionType e motion) 1 V1 V2 b else b = [] ∧ V2 = V1)
      (hMark : mark = if conceals e t then [true] else []) :
      HeadTo e V t n field (V2.directions e t) (start ++ (f ++ (b ++ mark)))

/-! ### faults -/

/-- Block `i` of the macroblock at column `a` of row `row` can be predicted from the references there are, and written. -/
def FitsPred (e : PicEnv) (V : Vecs) (W H row a : Nat) (field : Bool) (i : Nat) : Prop :=
  FitsBlock W H row a field i ∧
  (V.fwd = true → e.past ≠ none → PredFits W H i row a (V.vec 0 0) (V.vec 0 1)) ∧
  (V.bwd = true → e.future ≠ none → PredFits W H i row a (V.vec 1 0) (V.vec 1 1))

/-- The references there are, as far as they are used, have the size of the picture. -/
def RefsOK (e : PicEnv) (W H : Nat) : Prop :=
  (e.ph.pictureCodingType = 2 ∨ e.ph.pictureCodingType = 3 → ∀ f, e.past = some f → Geometry f W H) ∧
  (e.ph.pictureCodingType = 3 → ∀ f, e.future = some f → Geometry f W H)

/-- A macroblock of row `row` after the macroblock at `addr`, which has left the vectors `V`, on which the decoder panics. -/
inductive MbFaultAt (e : PicEnv) (W H row : Nat) (addr : Option Nat) (V : Vecs) : List Bool → Prop
  /-- a picture coding type other than I, P and B -/
  | codingType (k v : Nat) (c : List Bool) (h : (c, v) ∈ isoAddress)
      (ht : e.ph.pictureCodingType ≠ 1 ∧ e.ph.pictureCodingType ≠ 2 ∧ e.ph.pictureCodingType ≠ 3) :
      MbFaultAt e W H row addr V (escapes k ++ c)
  /-- skipped macroblocks of a P picture without reference, or beyond the end of the picture -/
  | skippedP (k v a : Nat) (c : List Bool) (h : (c, v) ∈ isoAddress) (ha : addr = some a) (hn : 1 < 33 * k + v)
      (ht : e.ph.pictureCodingType = 2) (hp : e.past = none ∨ ¬ FitsCopy W H row (a + (33 * k + v))) :
      MbFaultAt e W H row addr V (escapes k ++ c)
  /-- a skipped macroblock of a B picture that cannot be predicted with the last vectors, or does not fit into the picture -/
  | skippedB (k v a j i : Nat) (c : List Bool) (h : (c, v) ∈ isoAddress) (ha : addr = some a) (hj : a < j)
      (hn : j < a + (33 * k + v)) (ht : e.ph.pictureCodingType = 3) (hi : i < 6) (hp : ¬ FitsPred e V W H row j false i) :
      MbFaultAt e W H row addr V (escapes k ++ c)
  /-- vectors without motion type: the motion type 0, or concealment vectors in a picture with coded motion types -/
  | noMotion (t : MacroblockType) (n : Nat) (field : Bool) (motion l : List Bool) (h : HeadStart e t n field motion l)
      (hv : (t.forward || t.backward || conceals e t) = true) (hp : e.pce.framePredFrameDCT = 0) (hm : natOfBits motion = 0) :
      MbFaultAt e W H row addr V l
  /-- dual prime prediction -/
  | dualPrime (t : MacroblockType) (n : Nat) (field : Bool) (motion l x : List Bool) (h : HeadStart e t n field motion l)
      (hm : natOfBits motion = 3) (hx : PartWord (e.pce.fCode (if t.forward || conceals e t then 0 else 1) 0) x) :
      MbFaultAt e W H row addr V (l ++ x)
  /-- a block with too many coefficients, or one that cannot be predicted or does not fit into the picture -/
  | blocks (t : MacroblockType) (n cbp : Nat) (field : Bool) (V' : Vecs) (head pat l : List Bool) (h : HeadTo e V t n field V' head)
      (hPat : if t.pattern then (pat, cbp) ∈ isoCbp else pat = [])
      (hl : BlocksFault t.intra e.pce.intraVLCFormat (fun i => t.intra || (t.pattern && codedBlock cbp i))
        (FitsPred e V' W H row (place addr n) field) 6 0 l) : MbFaultAt e W H row addr V (head ++ (pat ++ l))

/-- Macroblocks one after the other from the one after `addr` and from the vectors `V` on, the last of them a fault. -/
inductive MbsFaultAt (e : PicEnv) (W H row : Nat) : Option Nat → Vecs → List Bool → Prop
  | last (addr : Option Nat) (V : Vecs) (l : List Bool) (h : MbFaultAt e W H row addr V l) : MbsFaultAt e W H row addr V l
  | next (addr : Option Nat) (V V' : Vecs) (t : MacroblockType) (n cbp : Nat) (field : Bool) (head pat blocks m : List Bool)
      (h : HeadTo e V t n field V' head) (hPat : if t.pattern then (pat, cbp) ∈ isoCbp else pat = [])
      (hBlocks : BlocksWord t.intra e.pce.intraVLCFormat (fun i => t.intra || (t.pattern && codedBlock cbp i)) 6 0 blocks)
      (ht : MbsFaultAt e W H row (some (place addr n)) V' m) : MbsFaultAt e W H row addr V (head ++ (pat ++ blocks) ++ m)
  | broken (addr : Option Nat) (V V' : Vecs) (t : MacroblockType) (n : Nat) (field : Bool) (head m : List Bool)
      (h : HeadTo e V t n field V' head) (hp : t.pattern = true) (ht : MbsFaultAt e W H row (some 0) V' m) :
      MbsFaultAt e W H row addr V (head ++ zeros 9 ++ m)

/-- A slice: its row begins beyond the end of the picture, or one of its macroblocks is a fault. -/
inductive SliceFaultAt (e : PicEnv) (W H : Nat) : List Bool → Prop
  | row (row : Nat) (h : row < 175) (hW : 0 < W) (hH : H < row) : SliceFaultAt e W H (bitsOf 32 (0x101 + row))
  | mbs (row : Nat) (ext q mbs : List Bool) (info : Option (Bool × List Nat)) (hRow : row < 175)
      (hExt : ext.length = if 2800 < e.sh.verticalSizeValue then 3 else 0) (hQ : q.length = 5)
      (hInfo : ∀ i, info = some i → ∀ x ∈ i.2, x < 256) (hMbs : MbsFaultAt e W H row none .zero mbs) :
      SliceFaultAt e W H (bitsOf 32 (0x101 + row) ++ (ext ++ (q ++ (infoBits info ++ mbs))))

/-- Slices from bit position `pos` on, the last of them a fault: the pictures on which the decoder panics. -/
inductive PictureFaultAt (e : PicEnv) (W H : Nat) : Nat → List Bool → Prop
  | last (pos : Nat) (l : List Bool) (h : SliceFaultAt e W H l) : PictureFaultAt e W H pos l
  | next (pos k : Nat) (l m : List Bool) (h : SliceWord e (LaxWord e) l)
      (t : PictureFaultAt e W H (pos + l.length + padding (pos + l.length) + 8 * k) m) :
      PictureFaultAt e W H pos (l ++ (zeros (padding (pos + l.length)) ++ (zeros (8 * k) ++ m)))

end Mpeg.Video.Spec
