/-
Slices and pictures of the reference decoder: their bits and the picture they stand for (ISO 13818-2 6.2.3.6, 6.2.4,
6.3.16).
-/
import Verif.Video.RefRel
import Verif.Video.HeaderSpec
namespace Mpeg.Video.Spec

/-- Macroblocks decoded one after the other; `a` is the address of the previous one. -/
def DState.mbs (e : PicEnv) (r : RefPics) (row : Nat) : Option Nat → DState → List MbData → DState
  | _, d, [] => d
  | a, d, m :: ms => DState.mbs e r row (some (addrAfter a m.incr)) (d.mb e r row a m) ms

/-- `bits` codes the legal macroblocks `ms`, from address `a` and state `d` on. -/
inductive MbsCode (e : PicEnv) (r : RefPics) (W H row : Nat) : Option Nat → DState → List MbData → List Bool → Prop
  | nil {a : Option Nat} {d : DState} : MbsCode e r W H row a d [] []
  | cons {a : Option Nat} {d : DState} {m : MbData} {ms : List MbData} {bits : List Bool} :
      MbLegal e r W H row a d m → (code : MbCode e ((d.skip e r row a m.incr).begin e m.type) m) →
      MbsCode e r W H row (some (addrAfter a m.incr)) (d.mb e r row a m) ms bits →
      MbsCode e r W H row a d (m :: ms) (code.bits ++ bits)

structure SliceData where
  row : Nat
  q : Nat
  /-- intra_slice and the bytes of extra information -/
  info : Option (Bool × List Nat)
  mbs : List MbData

/-- intra_slice_flag and what follows it, up to extra_bit_slice = 0. -/
def infoBits : Option (Bool × List Nat) → List Bool
  | none => [false]
  | some i => true :: i.1 :: (bitsOf 7 0 ++ encExtra i.2)

/-- The slice header after the start code.  Pictures with more than 2800 lines have an extension of the row, which is
zero here. -/
def SliceData.fields (e : PicEnv) (sl : SliceData) : List Bool :=
  (if 2800 < e.sh.verticalSizeValue then bitsOf 3 0 else []) ++ (bitsOf 5 sl.q ++ infoBits sl.info)

/-- The slice header. -/
def SliceData.head (e : PicEnv) (sl : SliceData) : List Bool := bitsOf 32 (0x101 + sl.row) ++ sl.fields e

/-- The state at the start of a slice of the picture `P`: DC predictors and vectors are reset. -/
def SliceData.start (e : PicEnv) (P : Image) (sl : SliceData) : DState :=
  ⟨P, dcReset e.pce.intraDCPrecision, fun _ _ => 0, false, false, sl.q⟩

/-- The picture after the slice. -/
def SliceData.image (e : PicEnv) (r : RefPics) (P : Image) (sl : SliceData) : Image :=
  (DState.mbs e r sl.row none (sl.start e P) sl.mbs).pic

/-- `bits` codes the legal slice `sl` of a picture of `W × H` macroblocks that so far is `P`. -/
structure SliceCode (e : PicEnv) (r : RefPics) (W H : Nat) (P : Image) (sl : SliceData) (bits : List Bool) : Prop where
  row : sl.row < H
  maxRow : sl.row < 175
  q : sl.q < 32
  info : ∀ i, sl.info = some i → ∀ x ∈ i.2, x < 256
  nonempty : sl.mbs ≠ []
  body : ∃ b, MbsCode e r W H sl.row none (sl.start e P) sl.mbs b ∧ bits = sl.head e ++ b

/-- `bits`, from bit position `pos` on, codes the slices `sls`, each followed by zero bits up to a byte boundary and
any number of zero bytes. -/
inductive SlicesCode (e : PicEnv) (r : RefPics) (W H : Nat) : Nat → Image → List SliceData → List Bool → Prop
  | nil {pos : Nat} {P : Image} : SlicesCode e r W H pos P [] []
  | cons {pos : Nat} {P : Image} {sl : SliceData} {sls : List SliceData} {bits more : List Bool} (k : Nat) :
      SliceCode e r W H P sl bits →
      SlicesCode e r W H (pos + bits.length + padding (pos + bits.length) + 8 * k) (sl.image e r P) sls more →
      SlicesCode e r W H pos P (sl :: sls) (bits ++ (zeros (padding (pos + bits.length)) ++ (zeros (8 * k) ++ more)))

/-- The picture of the slices `sls` on top of `P`. -/
def slicesImage (e : PicEnv) (r : RefPics) (P : Image) (sls : List SliceData) : Image :=
  sls.foldl (fun P sl => sl.image e r P) P

/-- Before the first slice. -/
def blank : Image := fun _ _ _ => 0

end Mpeg.Video.Spec
