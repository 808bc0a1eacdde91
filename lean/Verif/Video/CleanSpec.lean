/-
Slices as the standard allows them: the syntax of SynSpec, without the values that are forbidden because they could imitate start
codes (ISO/IEC 13818-2, 7.2.2.3 and 6.3.16).
-/
import Verif.Video.SynSpec
namespace Mpeg.Video.Spec

/-- A block in which no level is 0 (Table B.16: an escape code with level 0 is forbidden). -/
inductive CleanBlock (intra : Bool) (format cc : Nat) : List Bool → Prop
  | nonintra (evs : List (Nat × Int)) (l c : List Bool) (hi : intra = false) (hev : evs ≠ [])
      (hl : CodedEvents false true evs l) (hn : ∀ ev ∈ evs, ev.2 ≠ 0) (hc : (c, DctSym.eob) ∈ isoB14)
      (h64 : (expand evs).length ≤ 64) : CleanBlock intra format cc (l ++ c)
  | intra (n : Nat) (z d : List Bool) (evs : List (Nat × Int)) (l c : List Bool) (hi : intra = true)
      (hz : (z, n) ∈ isoDc cc) (hd : d.length = n) (hl : CodedEvents (format == 1) false evs l) (hn : ∀ ev ∈ evs, ev.2 ≠ 0)
      (hc : (c, DctSym.eob) ∈ isoCoef (format == 1) false) (h64 : (expand evs).length ≤ 63) :
      CleanBlock intra format cc (z ++ d ++ (l ++ c))

/-- The blocks of a macroblock, as in `BlocksWord`. -/
inductive CleanBlocks (intra : Bool) (format : Nat) (coded : Nat → Bool) : Nat → Nat → List Bool → Prop
  | nil (i : Nat) : CleanBlocks intra format coded 0 i []
  | coded (k i : Nat) (l m : List Bool) (hi : coded i = true) (h : CleanBlock intra format (blockComp i) l)
      (t : CleanBlocks intra format coded k (i + 1) m) : CleanBlocks intra format coded (k + 1) i (l ++ m)
  | uncoded (k i : Nat) (m : List Bool) (hi : coded i = false) (t : CleanBlocks intra format coded k (i + 1) m) :
      CleanBlocks intra format coded (k + 1) i m

/-- A macroblock, as in `MbWord`. -/
inductive CleanMb (e : PicEnv) : List Bool → Prop
  | mk (t : MacroblockType) (head pat blocks : List Bool) (cbp : Nat) (h : HeadWord e t head)
      (hPat : if t.pattern then (pat, cbp) ∈ isoCbp else pat = [])
      (hBlocks : CleanBlocks t.intra e.pce.intraVLCFormat (fun i => t.intra || (t.pattern && codedBlock cbp i)) 6 0 blocks) :
      CleanMb e (head ++ (pat ++ blocks))

/-- A slice, as in `SliceWord`; in pictures with more than 2800 lines its quantiser_scale_code is not 0 (which is forbidden anyway). -/
inductive CleanSlice (e : PicEnv) : List Bool → Prop
  | mk (row : Nat) (ext q mbs : List Bool) (info : Option (Bool × List Nat)) (hRow : row < 175)
      (hExt : ext.length = if 2800 < e.sh.verticalSizeValue then 3 else 0) (hQ : q.length = 5) (hQ0 : 2800 < e.sh.verticalSizeValue → true ∈ q)
      (hInfo : ∀ i, info = some i → ∀ x ∈ i.2, x < 256) (hMbs : Many (CleanMb e) mbs) :
      CleanSlice e (bitsOf 32 (0x101 + row) ++ (ext ++ (q ++ (infoBits info ++ mbs))))

/-- Slices, each followed by any number of zero bits. -/
inductive CleanSlices (e : PicEnv) : List Bool → Prop
  | nil : CleanSlices e []
  | cons (k : Nat) (l m : List Bool) (h : CleanSlice e l) (t : CleanSlices e m) : CleanSlices e (l ++ (zeros k ++ m))

/-- The codes `f_code` that are used have values of the standard (Table 7-8): forward vectors in P and B pictures and concealment
vectors, backward vectors in B pictures. -/
structure CodesUsed (e : PicEnv) : Prop where
  forward : e.ph.pictureCodingType ≠ 1 ∨ e.pce.concealmentMotionVectors = true → ∀ t < 2, e.pce.fCode 0 t ≤ 9
  backward : e.ph.pictureCodingType = 3 → ∀ t < 2, e.pce.fCode 1 t ≤ 9

end Mpeg.Video.Spec
