/-
The syntax of slices, macroblocks and blocks of 4:2:0 video (ISO/IEC 13818-2, 6.2.4 to 6.2.6) as languages of bit strings:
no values, no decoder state.
-/
import Verif.Video.RefSpec
import Verif.Video.PicSpec
namespace Mpeg.Video.Spec

/-! ### blocks (6.2.6) -/

/-- A block of component `cc`: in intra blocks a size of Table B.12 or B.13 and a difference of that many bits; then events
of Table B.14 or B.15 and an end of block code.  There are at most 64 coefficients. -/
inductive BlockWord (intra : Bool) (format cc : Nat) : List Bool → Prop
  | nonintra (evs : List (Nat × Int)) (l c : List Bool) (hi : intra = false) (hev : evs ≠ [])
      (hl : CodedEvents false true evs l) (hc : (c, DctSym.eob) ∈ isoB14) (h64 : (expand evs).length ≤ 64) :
      BlockWord intra format cc (l ++ c)
  | intra (n : Nat) (z d : List Bool) (evs : List (Nat × Int)) (l c : List Bool) (hi : intra = true)
      (hz : (z, n) ∈ isoDc cc) (hd : d.length = n) (hl : CodedEvents (format == 1) false evs l)
      (hc : (c, DctSym.eob) ∈ isoCoef (format == 1) false) (h64 : (expand evs).length ≤ 63) :
      BlockWord intra format cc (z ++ d ++ (l ++ c))

/-- The blocks of a macroblock from block `i` on, `k` of them; only those marked by `coded` are present. -/
inductive BlocksWord (intra : Bool) (format : Nat) (coded : Nat → Bool) : Nat → Nat → List Bool → Prop
  | nil (i : Nat) : BlocksWord intra format coded 0 i []
  | coded (k i : Nat) (l m : List Bool) (hi : coded i = true) (h : BlockWord intra format (blockComp i) l)
      (t : BlocksWord intra format coded k (i + 1) m) : BlocksWord intra format coded (k + 1) i (l ++ m)
  | uncoded (k i : Nat) (m : List Bool) (hi : coded i = false) (t : BlocksWord intra format coded k (i + 1) m) :
      BlocksWord intra format coded (k + 1) i m

/-! ### vectors (6.2.5.2) -/

/-- motion_code and motion_residual -/
inductive PartWord (fCode : Nat) : List Bool → Prop
  | mk (c r : List Bool) (code : Int) (h : (c, code) ∈ isoMotion)
      (hr : r.length = if fCode ≠ 1 ∧ code ≠ 0 then fCode - 1 else 0) : PartWord fCode (c ++ r)

/-- dmvector (Table B.11), present for dual prime prediction -/
def DmvWord (dual : Bool) (l : List Bool) : Prop :=
  if dual then l = [false] ∨ l = [true, false] ∨ l = [true, true] else l = []

/-- motion_vector -/
inductive VectorWord (fh fv : Nat) (dual : Bool) : List Bool → Prop
  | mk (a b c d : List Bool) (ha : PartWord fh a) (hb : DmvWord dual b) (hc : PartWord fv c) (hd : DmvWord dual d) :
      VectorWord fh fv dual (a ++ (b ++ (c ++ d)))

/-- Tables 6-17 and 6-18: number of vectors, is there a field select, dual prime. -/
def motionFormat (frame : Bool) (motion : Nat) : Option (Nat × Bool × Bool) :=
  if motion = 1 then some (if frame then 2 else 1, true, false)
  else if motion = 2 then some (if frame then (1, false, false) else (2, true, false))
  else if motion = 3 then some (1, false, true)
  else none

/-- `n` vectors, each with its motion_vertical_field_select if there is one -/
inductive VectorsWord (fh fv : Nat) (select dual : Bool) : Nat → List Bool → Prop
  | nil : VectorsWord fh fv select dual 0 []
  | cons (n : Nat) (b l m : List Bool) (hb : b.length = if select then 1 else 0) (hl : VectorWord fh fv dual l)
      (t : VectorsWord fh fv select dual n m) : VectorsWord fh fv select dual (n + 1) (b ++ (l ++ m))

/-- motion_vectors(s) for the motion type `motion` -/
def MotionWord (e : PicEnv) (motion s : Nat) (l : List Bool) : Prop :=
  ∃ n select dual, motionFormat (e.pce.pictureStructure == 3) motion = some (n, select, dual) ∧
    VectorsWord (e.pce.fCode s 0) (e.pce.fCode s 1) select dual n l

/-! ### macroblocks (6.2.5) -/

/-- Is a motion type coded?  It is in field pictures, and in frame pictures with frame_pred_frame_dct = 0. -/
def motionCoded (e : PicEnv) : Bool := e.pce.pictureStructure != 3 || e.pce.framePredFrameDCT == 0

/-- The motion type: the two bits, or frame prediction in frame pictures and field prediction in field pictures. -/
def motionType (e : PicEnv) (l : List Bool) : Nat :=
  if l = [] then (if e.pce.pictureStructure = 3 then 2 else 1) else natOfBits l

/-- A macroblock of type `t` up to its coded_block_pattern. -/
inductive HeadWord (e : PicEnv) : MacroblockType → List Bool → Prop
  | mk (k v : Nat) (t : MacroblockType) (addr type motion dct q f b mark : List Bool)
      (hAddr : (addr, v) ∈ isoAddress)
      (hType : (type, t) ∈ isoType e.ph.pictureCodingType)
      (hMotion : motion.length = if (t.forward || t.backward) && motionCoded e then 2 else 0)
      (hDct : dct.length =
        if e.pce.pictureStructure == 3 && e.pce.framePredFrameDCT == 0 && (t.intra || t.pattern) then 1 else 0)
      (hQ : q.length = if t.quant then 5 else 0)
      (hF : if t.forward || conceals e t then MotionWord e (motionType e motion) 0 f else f = [])
      (hB : if t.backward then MotionWord e (motionType e motion) 1 b else b = [])
      (hMark : mark = if conceals e t then [true] else []) :
      HeadWord e t (escapes k ++ (addr ++ (type ++ (motion ++ (dct ++ (q ++ (f ++ (b ++ mark))))))))

/-- A macroblock. -/
inductive MbWord (e : PicEnv) : List Bool → Prop
  | mk (t : MacroblockType) (head pat blocks : List Bool) (cbp : Nat) (h : HeadWord e t head)
      (hPat : if t.pattern then (pat, cbp) ∈ isoCbp else pat = [])
      (hBlocks : BlocksWord t.intra e.pce.intraVLCFormat (fun i => t.intra || (t.pattern && codedBlock cbp i)) 6 0 blocks) :
      MbWord e (head ++ (pat ++ blocks))

/-- A macroblock with nine zeros, which are the beginning of no code of Table B.9, in place of coded_block_pattern and the
blocks. -/
inductive BrokenWord (e : PicEnv) : List Bool → Prop
  | mk (t : MacroblockType) (head : List Bool) (h : HeadWord e t head) (ht : t.pattern = true) :
      BrokenWord e (head ++ zeros 9)

/-- A macroblock, or one with nine zeros in place of its coded_block_pattern. -/
def LaxWord (e : PicEnv) (l : List Bool) : Prop := MbWord e l ∨ BrokenWord e l

/-! ### slices (6.2.4) and pictures (6.2.3.6) -/

/-- A list of words of the language `M`, one after the other. -/
inductive Many (M : List Bool → Prop) : List Bool → Prop
  | one (l : List Bool) (h : M l) : Many M l
  | cons (l m : List Bool) (h : M l) (t : Many M m) : Many M (l ++ m)

/-- A slice of macroblocks of the language `M`. -/
inductive SliceWord (e : PicEnv) (M : List Bool → Prop) : List Bool → Prop
  | mk (row : Nat) (ext q mbs : List Bool) (info : Option (Bool × List Nat)) (hRow : row < 175)
      (hExt : ext.length = if 2800 < e.sh.verticalSizeValue then 3 else 0) (hQ : q.length = 5)
      (hInfo : ∀ i, info = some i → ∀ x ∈ i.2, x < 256) (hMbs : Many M mbs) :
      SliceWord e M (bitsOf 32 (0x101 + row) ++ (ext ++ (q ++ (infoBits info ++ mbs))))

/-- Slices from bit position `pos` on, each followed by zero bits up to a byte boundary and any number of zero bytes. -/
inductive SlicesWord (e : PicEnv) (M : List Bool → Prop) : Nat → List Bool → Prop
  | one (pos k : Nat) (l : List Bool) (h : SliceWord e M l) :
      SlicesWord e M pos (l ++ (zeros (padding (pos + l.length)) ++ zeros (8 * k)))
  | cons (pos k : Nat) (l m : List Bool) (h : SliceWord e M l)
      (t : SlicesWord e M (pos + l.length + padding (pos + l.length) + 8 * k) m) :
      SlicesWord e M pos (l ++ (zeros (padding (pos + l.length)) ++ (zeros (8 * k) ++ m)))

/-- The next start code is not that of a slice. -/
def NoSlice (r : List Bool) : Prop := ∃ c r', c < 256 ∧ (c = 0 ∨ 175 < c) ∧ r = bitsOf 8 c ++ r'

/-- The codes of a picture that can be decoded. -/
def CodesOK (e : PicEnv) : Prop := ∀ s < 2, ∀ t < 2, 1 ≤ e.pce.fCode s t ∧ e.pce.fCode s t ≤ 15

/-- The pictures considered: 4:2:0, `f_code` given, frame_pred_frame_dct one bit and 0 in field pictures. -/
structure Plain (e : PicEnv) : Prop where
  chroma : e.se.chromaFormat = 1
  codes : CodesOK e
  fpfd : e.pce.framePredFrameDCT = 0 ∨ e.pce.framePredFrameDCT = 1 ∧ e.pce.pictureStructure = 3

end Mpeg.Video.Spec
