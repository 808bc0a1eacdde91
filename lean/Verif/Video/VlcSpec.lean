/-
The variable length code tables of ISO/IEC 13818-2 Annex B, written as (code, length) pairs in the order of the
value, independently of the tables of the decoder.
-/
import Verif.Video.VlcTables
import Verif.Base.Bits
namespace Mpeg.Video.Spec
open Mpeg

/-- No code word is a prefix of the code word of another entry, and none is empty. -/
def PrefixFree {α : Type} (t : List (List Bool × α)) : Prop :=
  ∀ e ∈ t, e.1 ≠ [] ∧ ∀ e' ∈ t, e.1 <+: e'.1 → e = e'

/-- Two tables have the same entries. -/
def SameEntries {α : Type} (t u : List (List Bool × α)) : Prop := ∀ e, e ∈ t ↔ e ∈ u

/-- A code word given by its number and length. -/
def cw (c : Nat × Nat) : List Bool := bitsOf c.2 c.1

/-- Table B.1, increments 1, 2, ..., 33. -/
def addressCodes : List (Nat × Nat) :=
  [(1,1),(3,3),(2,3),(3,4),(2,4),(3,5),(2,5),(7,7),(6,7),(11,8),(10,8),(9,8),(8,8),(7,8),(6,8),(23,10),(22,10),
   (21,10),(20,10),(19,10),(18,10),(35,11),(34,11),(33,11),(32,11),(31,11),(30,11),(29,11),(28,11),(27,11),
   (26,11),(25,11),(24,11)]
def isoAddress : List (List Bool × Nat) := (addressCodes.zipIdx).map fun e => (cw e.1, e.2 + 1)
/-- Table B.1, macroblock_escape. -/
def addressEscape : List Bool := cw (8, 11)

/-- Table B.2: (code, quant, forward, backward, pattern, intra). -/
def isoTypeI : List (List Bool × MacroblockType) :=
  [(cw (1,1), ⟨false, false, false, false, true⟩), (cw (1,2), ⟨true, false, false, false, true⟩)]
/-- Table B.3. -/
def isoTypeP : List (List Bool × MacroblockType) :=
  [(cw (1,1), ⟨false, true, false, true, false⟩), (cw (1,2), ⟨false, false, false, true, false⟩),
   (cw (1,3), ⟨false, true, false, false, false⟩), (cw (3,5), ⟨false, false, false, false, true⟩),
   (cw (2,5), ⟨true, true, false, true, false⟩), (cw (1,5), ⟨true, false, false, true, false⟩),
   (cw (1,6), ⟨true, false, false, false, true⟩)]
/-- Table B.4. -/
def isoTypeB : List (List Bool × MacroblockType) :=
  [(cw (2,2), ⟨false, true, true, false, false⟩), (cw (3,2), ⟨false, true, true, true, false⟩),
   (cw (2,3), ⟨false, false, true, false, false⟩), (cw (3,3), ⟨false, false, true, true, false⟩),
   (cw (2,4), ⟨false, true, false, false, false⟩), (cw (3,4), ⟨false, true, false, true, false⟩),
   (cw (3,5), ⟨false, false, false, false, true⟩), (cw (2,5), ⟨true, true, true, true, false⟩),
   (cw (3,6), ⟨true, true, false, true, false⟩), (cw (2,6), ⟨true, false, true, true, false⟩),
   (cw (1,6), ⟨true, false, false, false, true⟩)]

/-- Table B.9 in the order of the pattern 0, 1, ..., 63. -/
def cbpCodes : List (Nat × Nat) :=
  [(1,9),(11,5),(9,5),(13,6),(13,4),(23,7),(19,7),(31,8),(12,4),(22,7),(18,7),(30,8),(19,5),(27,8),(23,8),(19,8),
   (11,4),(21,7),(17,7),(29,8),(17,5),(25,8),(21,8),(17,8),(15,6),(15,8),(13,8),(3,9),(15,5),(11,8),(7,8),(7,9),
   (10,4),(20,7),(16,7),(28,8),(14,6),(14,8),(12,8),(2,9),(16,5),(24,8),(20,8),(16,8),(14,5),(10,8),(6,8),(6,9),
   (18,5),(26,8),(22,8),(18,8),(13,5),(9,8),(5,8),(5,9),(12,5),(8,8),(4,8),(4,9),(7,3),(10,5),(8,5),(12,6)]
def isoCbp : List (List Bool × Nat) := (cbpCodes.zipIdx).map fun e => (cw e.1, e.2)

/-- Table B.10 for the magnitudes 0, 1, ..., 16, without the sign bit. -/
def motionCodes : List (Nat × Nat) :=
  [(1,1),(1,2),(1,3),(1,4),(3,6),(5,7),(4,7),(3,7),(11,9),(10,9),(9,9),(17,10),(16,10),(15,10),(14,10),(13,10),
   (12,10)]
def isoMotion : List (List Bool × Int) :=
  (motionCodes.zipIdx).flatMap fun e =>
    if e.2 = 0 then [(cw e.1, (0 : Int))]
    else [(cw e.1 ++ [false], (e.2 : Int)), (cw e.1 ++ [true], -(e.2 : Int))]

/-- Table B.12, sizes 0, 1, ..., 11. -/
def isoDcLuma : List (List Bool × Nat) :=
  ([(4,3),(0,2),(1,2),(5,3),(6,3),(14,4),(30,5),(62,6),(126,7),(254,8),(510,9),(511,9)].zipIdx).map
    fun e => (cw e.1, e.2)
/-- Table B.13, sizes 0, 1, ..., 11. -/
def isoDcChroma : List (List Bool × Nat) :=
  ([(0,2),(1,2),(2,2),(6,3),(14,4),(30,5),(62,6),(126,7),(254,8),(510,9),(1022,10),(1023,10)].zipIdx).map
    fun e => (cw e.1, e.2)

/-- Codes given per run: the `k`-th list holds the codes of run `k` for the levels 1, 2, ... -/
def runTable (l : List (List (Nat × Nat))) : List (List Bool × DctSym) :=
  (l.zipIdx).flatMap fun r => (r.1.zipIdx).map fun e => (cw e.1, .coef r.2 (e.2 + 1))

/-- Table B.14 without the two codes of (0, 1), end of block and escape: the codes of run 0 start at level 2. -/
def b14Run0 : List (Nat × Nat) :=
  [(4,4),(5,5),(6,7),(38,8),(33,8),(10,10),(29,12),(24,12),(19,12),(16,12),(26,13),(25,13),(24,13),(23,13),(31,14),
   (30,14),(29,14),(28,14),(27,14),(26,14),(25,14),(24,14),(23,14),(22,14),(21,14),(20,14),(19,14),(18,14),(17,14),
   (16,14),(24,15),(23,15),(22,15),(21,15),(20,15),(19,15),(18,15),(17,15),(16,15)]
def b14Runs : List (List (Nat × Nat)) :=
  [[(3,3),(6,6),(37,8),(12,10),(27,12),(22,13),(21,13),(31,15),(30,15),(29,15),(28,15),(27,15),(26,15),(25,15),
    (19,16),(18,16),(17,16),(16,16)],
   [(5,4),(4,7),(11,10),(20,12),(20,13)],
   [(7,5),(36,8),(28,12),(19,13)],
   [(6,5),(15,10),(18,12)],
   [(7,6),(9,10),(18,13)],
   [(5,6),(30,12),(20,16)],
   [(4,6),(21,12)],
   [(7,7),(17,12)],
   [(5,7),(17,13)],
   [(39,8),(16,13)],
   [(35,8),(26,16)],
   [(34,8),(25,16)],
   [(32,8),(24,16)],
   [(14,10),(23,16)],
   [(13,10),(22,16)],
   [(8,10),(21,16)],
   [(31,12)],[(26,12)],[(25,12)],[(23,12)],[(22,12)],[(31,13)],[(30,13)],[(29,13)],[(28,13)],[(27,13)],
   [(31,16)],[(30,16)],[(29,16)],[(28,16)],[(27,16)]]

/-- Table B.14 for the first coefficient of a non-intra block: (0, 1) is coded as `1`, no end of block. -/
def isoB14First : List (List Bool × DctSym) :=
  (cw (1,6), .escape) :: runTable (((1,1) :: b14Run0) :: b14Runs)
/-- Table B.14 for all other coefficients. -/
def isoB14 : List (List Bool × DctSym) :=
  (cw (2,2), .eob) :: (cw (1,6), .escape) :: runTable (((3,2) :: b14Run0) :: b14Runs)

/-- Table B.15. -/
def isoB15 : List (List Bool × DctSym) :=
  (cw (6,4), .eob) :: (cw (1,6), .escape) :: runTable
  [[(2,2),(6,3),(7,4),(28,5),(29,5),(5,6),(4,6),(123,7),(124,7),(35,8),(34,8),(250,8),(251,8),(254,8),(255,8),(31,14),
    (30,14),(29,14),(28,14),(27,14),(26,14),(25,14),(24,14),(23,14),(22,14),(21,14),(20,14),(19,14),(18,14),(17,14),
    (16,14),(24,15),(23,15),(22,15),(21,15),(20,15),(19,15),(18,15),(17,15),(16,15)],
   [(2,3),(6,5),(121,7),(39,8),(32,8),(22,13),(21,13),(31,15),(30,15),(29,15),(28,15),(27,15),(26,15),(25,15),
    (19,16),(18,16),(17,16),(16,16)],
   [(5,5),(7,7),(252,8),(12,10),(20,13)],
   [(7,5),(38,8),(28,12),(19,13)],
   [(6,6),(253,8),(18,12)],
   [(7,6),(4,9),(18,13)],
   [(6,7),(30,12),(20,16)],
   [(4,7),(21,12)],
   [(5,7),(17,12)],
   [(120,7),(17,13)],
   [(122,7),(16,13)],
   [(33,8),(26,16)],
   [(37,8),(25,16)],
   [(36,8),(24,16)],
   [(5,9),(23,16)],
   [(7,9),(22,16)],
   [(13,10),(21,16)],
   [(31,12)],[(26,12)],[(25,12)],[(23,12)],[(22,12)],[(31,13)],[(30,13)],[(29,13)],[(28,13)],[(27,13)],
   [(31,16)],[(30,16)],[(29,16)],[(28,16)],[(27,16)]]

end Mpeg.Video.Spec
