/-
Which bits make the decoder of pictures panic: languages of bit strings over the syntax of `SynSpec`, for pictures of `W` by
`H` macroblocks.  No values, no decoder state.
-/
import Verif.Video.SynSpec
import Verif.Video.FrameSpec
namespace Mpeg.Video.Spec

/-! ### macroblocks up to the coded block pattern -/

/-- A macroblock of type `t` up to its motion vectors: the address increment is `n`, `motion` are the bits of the motion type,
`field` tells whether the transform is by fields. -/
inductive HeadStart (e : PicEnv) (t : MacroblockType) (n : Nat) (field : Bool) (motion : List Bool) : List Bool → Prop
  | mk (k v : Nat) (addr type dct q : List Bool) (hn : n = 33 * k + v) (hAddr : (addr, v) ∈ isoAddress)
      (hType : (type, t) ∈ isoType e.ph.pictureCodingType)
      (hMotion : motion.length = if (t.forward || t.backward) && motionCoded e then 2 else 0)
      (hDct : dct.length =
        if e.pce.pictureStructure == 3 && e.pce.framePredFrameDCT == 0 && (t.intra || t.pattern) then 1 else 0)
      (hField : field = (dct == [true])) (hQ : q.length = if t.quant then 5 else 0) :
      HeadStart e t n field motion (escapes k ++ (addr ++ (type ++ (motion ++ (dct ++ q)))))

/-- A macroblock of type `t` up to its coded_block_pattern, with its address increment and kind of transform. -/
inductive HeadAt (e : PicEnv) (t : MacroblockType) (n : Nat) (field : Bool) : List Bool → Prop
  | mk (start motion f b mark : List Bool) (hs : HeadStart e t n field motion start)
      (hF : if t.forward || conceals e t then MotionWord e (motionType e motion) 0 f else f = [])
      (hB : if t.backward then MotionWord e (motionType e motion) 1 b else b = [])
      (hMark : mark = if conceals e t then [true] else []) : HeadAt e t n field (start ++ (f ++ (b ++ mark)))

/-! ### places -/

/-- The address of a macroblock with increment `n` after the macroblock at `addr`; none: it is the first of the slice. -/
def place (addr : Option Nat) (n : Nat) : Nat :=
  match addr with
  | none => n - 1
  | some a => a + n

/-- The samples of block `i` of the macroblock at column `a` of row `row`, written from its first line and column on into the
lines of a plane one behind the other, end within the plane.  (A column beyond the right edge continues in the lines below.) -/
def FitsBlock (W H row a : Nat) (field : Bool) (i : Nat) : Prop :=
  if i < 4 then
    (16 * row + (if field then i / 2 + 14 else 8 * (i / 2) + 7)) * (16 * W) + (16 * a + 8 * (i % 2) + 7) < 16 * H * (16 * W)
  else (8 * row + 7) * (8 * W) + (8 * a + 7) < 8 * H * (8 * W)

/-- The macroblocks before column `a` of the row can be copied. -/
def FitsCopy (W H row a : Nat) : Prop := (8 * row + 7) * (8 * W) + 8 * a ≤ 8 * H * (8 * W)

/-- In P pictures: the reference, if there is one, has the size of the picture. -/
def PastOK (e : PicEnv) (W H : Nat) : Prop := e.ph.pictureCodingType = 2 → ∀ f, e.past = some f → Geometry f W H

/-! ### faults -/

/-- A block with too many coefficients. -/
inductive BlockOver (intra : Bool) (format cc : Nat) : List Bool → Prop
  | nonintra (evs : List (Nat × Int)) (l : List Bool) (hi : intra = false) (hl : CodedEvents false true evs l)
      (h64 : 64 < (expand evs).length) : BlockOver intra format cc l
  | intra (n : Nat) (z d : List Bool) (evs : List (Nat × Int)) (l : List Bool) (hi : intra = true)
      (hz : (z, n) ∈ isoDc cc) (hd : d.length = n) (hl : CodedEvents (format == 1) false evs l)
      (h63 : 63 < (expand evs).length) : BlockOver intra format cc (z ++ d ++ l)

/-- Block `i`, if it is coded. -/
def SomeBlock (intra : Bool) (format : Nat) (coded : Nat → Bool) (i : Nat) (l : List Bool) : Prop :=
  if coded i then BlockWord intra format (blockComp i) l else l = []

/-- Blocks from `i` on, `k` of them: one of them has too many coefficients, or cannot be written. -/
inductive BlocksFault (intra : Bool) (format : Nat) (coded : Nat → Bool) (fits : Nat → Prop) : Nat → Nat → List Bool → Prop
  | over (k i : Nat) (l : List Bool) (hi : coded i = true) (h : BlockOver intra format (blockComp i) l) :
      BlocksFault intra format coded fits (k + 1) i l
  | place (k i : Nat) (l : List Bool) (h : SomeBlock intra format coded i l) (hf : ¬ fits i) :
      BlocksFault intra format coded fits (k + 1) i l
  | next (k i : Nat) (l m : List Bool) (h : SomeBlock intra format coded i l)
      (t : BlocksFault intra format coded fits k (i + 1) m) : BlocksFault intra format coded fits (k + 1) i (l ++ m)

/-- A macroblock of row `row` after the macroblock at `addr` on which the decoder panics, whatever it has decoded before. -/
inductive MbFault (e : PicEnv) (W H row : Nat) (addr : Option Nat) : List Bool → Prop
  /-- a picture coding type other than I, P and B -/
  | codingType (k v : Nat) (c : List Bool) (h : (c, v) ∈ isoAddress)
      (ht : e.ph.pictureCodingType ≠ 1 ∧ e.ph.pictureCodingType ≠ 2 ∧ e.ph.pictureCodingType ≠ 3) :
      MbFault e W H row addr (escapes k ++ c)
  /-- skipped macroblocks of a P picture without reference, or beyond the end of the picture -/
  | skipped (k v a : Nat) (c : List Bool) (h : (c, v) ∈ isoAddress) (ha : addr = some a) (hn : 1 < 33 * k + v)
      (ht : e.ph.pictureCodingType = 2) (hp : e.past = none ∨ ¬ FitsCopy W H row (a + (33 * k + v))) :
      MbFault e W H row addr (escapes k ++ c)
  /-- vectors without motion type: the motion type 0, or concealment vectors in a picture with coded motion types -/
  | noMotion (t : MacroblockType) (n : Nat) (field : Bool) (motion l : List Bool) (h : HeadStart e t n field motion l)
      (hv : (t.forward || t.backward || conceals e t) = true) (hp : e.pce.framePredFrameDCT = 0) (hm : natOfBits motion = 0) :
      MbFault e W H row addr l
  /-- dual prime prediction -/
  | dualPrime (t : MacroblockType) (n : Nat) (field : Bool) (motion l x : List Bool) (h : HeadStart e t n field motion l)
      (hm : natOfBits motion = 3) (hx : PartWord (e.pce.fCode (if t.forward || conceals e t then 0 else 1) 0) x) :
      MbFault e W H row addr (l ++ x)
  /-- a block with too many coefficients, or one that does not fit into the picture -/
  | blocks (t : MacroblockType) (n cbp : Nat) (field : Bool) (head pat l : List Bool) (h : HeadAt e t n field head)
      (hPat : if t.pattern then (pat, cbp) ∈ isoCbp else pat = [])
      (hl : BlocksFault t.intra e.pce.intraVLCFormat (fun i => t.intra || (t.pattern && codedBlock cbp i))
        (FitsBlock W H row (place addr n) field) 6 0 l) : MbFault e W H row addr (head ++ (pat ++ l))

/-- A macroblock on which the decoder may panic, depending on the vectors: one predicted from a reference, or skipped
macroblocks of a B picture. -/
inductive MbRisk (e : PicEnv) (addr : Option Nat) : List Bool → Prop
  | skipped (k v : Nat) (c : List Bool) (h : (c, v) ∈ isoAddress) (ha : addr ≠ none) (hn : 1 < 33 * k + v)
      (ht : e.ph.pictureCodingType = 3) : MbRisk e addr (escapes k ++ c)
  | predicted (t : MacroblockType) (n cbp j : Nat) (field : Bool) (head pat l : List Bool) (h : HeadAt e t n field head)
      (hv : (t.forward || t.backward) = true) (hr : e.past ≠ none ∨ e.future ≠ none)
      (hPat : if t.pattern then (pat, cbp) ∈ isoCbp else pat = []) (hj : j < 6)
      (hl : BlocksWord t.intra e.pce.intraVLCFormat (fun i => t.intra || (t.pattern && codedBlock cbp i)) (j + 1) 0 l) :
      MbRisk e addr (head ++ (pat ++ l))

/-- Macroblocks one after the other from the one after `addr` on, the last of them in the language `F` of its address.  A
macroblock with nine zeros in place of its coded_block_pattern leaves the address 0. -/
inductive MbsFault (e : PicEnv) (F : Option Nat → List Bool → Prop) : Option Nat → List Bool → Prop
  | last (addr : Option Nat) (l : List Bool) (h : F addr l) : MbsFault e F addr l
  | next (addr : Option Nat) (t : MacroblockType) (n cbp : Nat) (field : Bool) (head pat blocks m : List Bool)
      (h : HeadAt e t n field head) (hPat : if t.pattern then (pat, cbp) ∈ isoCbp else pat = [])
      (hBlocks : BlocksWord t.intra e.pce.intraVLCFormat (fun i => t.intra || (t.pattern && codedBlock cbp i)) 6 0 blocks)
      (ht : MbsFault e F (some (place addr n)) m) : MbsFault e F addr (head ++ (pat ++ blocks) ++ m)
  | broken (addr : Option Nat) (l m : List Bool) (h : BrokenWord e l) (ht : MbsFault e F (some 0) m) :
      MbsFault e F addr (l ++ m)

/-- A slice: its row begins beyond the end of the picture, or one of its macroblocks is in `F`. -/
inductive SliceFault (e : PicEnv) (W H : Nat) (F : Nat → Option Nat → List Bool → Prop) : List Bool → Prop
  | row (row : Nat) (h : row < 175) (hW : 0 < W) (hH : H < row) : SliceFault e W H F (bitsOf 32 (0x101 + row))
  | mbs (row : Nat) (ext q mbs : List Bool) (info : Option (Bool × List Nat)) (hRow : row < 175)
      (hExt : ext.length = if 2800 < e.sh.verticalSizeValue then 3 else 0) (hQ : q.length = 5)
      (hInfo : ∀ i, info = some i → ∀ x ∈ i.2, x < 256) (hMbs : MbsFault e (F row) none mbs) :
      SliceFault e W H F (bitsOf 32 (0x101 + row) ++ (ext ++ (q ++ (infoBits info ++ mbs))))

/-- Slices from bit position `pos` on, the last of them a fault. -/
inductive SlicesFault (e : PicEnv) (W H : Nat) (F : Nat → Option Nat → List Bool → Prop) : Nat → List Bool → Prop
  | last (pos : Nat) (l : List Bool) (h : SliceFault e W H F l) : SlicesFault e W H F pos l
  | next (pos k : Nat) (l m : List Bool) (h : SliceWord e (LaxWord e) l)
      (t : SlicesFault e W H F (pos + l.length + padding (pos + l.length) + 8 * k) m) :
      SlicesFault e W H F pos (l ++ (zeros (padding (pos + l.length)) ++ (zeros (8 * k) ++ m)))

/-- The pictures on which the decoder panics, whatever its references hold. -/
def PictureFault (e : PicEnv) (W H : Nat) : Nat → List Bool → Prop := SlicesFault e W H (MbFault e W H)

/-- The pictures on which it may panic. -/
def PictureRisk (e : PicEnv) (W H : Nat) : Nat → List Bool → Prop :=
  SlicesFault e W H fun row addr l => MbFault e W H row addr l ∨ MbRisk e addr l

end Mpeg.Video.Spec
