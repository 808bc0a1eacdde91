set_option linter.all false
/-!
# Variable length code tables of the video decoder

Generated from the Go sources by a script that copies every entry of the Go table literals in
source order.  `I` is the bit 1 and `O` the bit 0.
-/
namespace Mpeg.Video

/-- `huffman.HuffmanTable` (external package): code words and their values.  The Go type is a map
from strings of `0`, `1` and blanks; blanks only separate groups of digits. -/
abbrev Table (α : Type) := List (List Bool × α)

local notation "I" => true
local notation "O" => false

/-- `MacroblockType` (`/repo/video/macroblock_type.go:32-40`) without the two scalability members. -/
structure MacroblockType where
  quant : Bool
  forward : Bool
  backward : Bool
  pattern : Bool
  intra : Bool
deriving DecidableEq, Repr, Inhabited

/-- The dynamic types stored in the coefficient tables (`/repo/video/dtc_coefficients.go:6-12`). -/
inductive DctSym where
  | eob
  | escape
  | coef (run level : Nat)
deriving DecidableEq, Repr

/-- macroblock_address_increment codes (`/repo/video/macroblock_addressing.go:10-44`). -/
def addrTable : Table Nat := [
  ([I], 1),
  ([O,I,I], 2),
  ([O,I,O], 3),
  ([O,O,I,I], 4),
  ([O,O,I,O], 5),
  ([O,O,O,I,I], 6),
  ([O,O,O,I,O], 7),
  ([O,O,O,O,I,I,I], 8),
  ([O,O,O,O,I,I,O], 9),
  ([O,O,O,O,I,O,I,I], 10),
  ([O,O,O,O,I,O,I,O], 11),
  ([O,O,O,O,I,O,O,I], 12),
  ([O,O,O,O,I,O,O,O], 13),
  ([O,O,O,O,O,I,I,I], 14),
  ([O,O,O,O,O,I,I,O], 15),
  ([O,O,O,O,O,I,O,I,I,I], 16),
  ([O,O,O,O,O,I,O,I,I,O], 17),
  ([O,O,O,O,O,I,O,I,O,I], 18),
  ([O,O,O,O,O,I,O,I,O,O], 19),
  ([O,O,O,O,O,I,O,O,I,I], 20),
  ([O,O,O,O,O,I,O,O,I,O], 21),
  ([O,O,O,O,O,I,O,O,O,I,I], 22),
  ([O,O,O,O,O,I,O,O,O,I,O], 23),
  ([O,O,O,O,O,I,O,O,O,O,I], 24),
  ([O,O,O,O,O,I,O,O,O,O,O], 25),
  ([O,O,O,O,O,O,I,I,I,I,I], 26),
  ([O,O,O,O,O,O,I,I,I,I,O], 27),
  ([O,O,O,O,O,O,I,I,I,O,I], 28),
  ([O,O,O,O,O,O,I,I,I,O,O], 29),
  ([O,O,O,O,O,O,I,I,O,I,I], 30),
  ([O,O,O,O,O,O,I,I,O,I,O], 31),
  ([O,O,O,O,O,O,I,I,O,O,I], 32),
  ([O,O,O,O,O,O,I,I,O,O,O], 33)]

/-- `iFrameMacroblockTypesTable`; the two scalability members, which are `false` and `spatialTemporalWeightClass_0` in every entry, are left out (`/repo/video/macroblock_type.go:42-45`). -/
def iTypeTable : Table MacroblockType := [
  ([I], ⟨false, false, false, false, true⟩),
  ([O,I], ⟨true, false, false, false, true⟩)]

/-- `pFrameMacroblockTypesTable`; the two scalability members, which are `false` and `spatialTemporalWeightClass_0` in every entry, are left out (`/repo/video/macroblock_type.go:47-55`). -/
def pTypeTable : Table MacroblockType := [
  ([I], ⟨false, true, false, true, false⟩),
  ([O,I], ⟨false, false, false, true, false⟩),
  ([O,O,I], ⟨false, true, false, false, false⟩),
  ([O,O,O,I,I], ⟨false, false, false, false, true⟩),
  ([O,O,O,I,O], ⟨true, true, false, true, false⟩),
  ([O,O,O,O,I], ⟨true, false, false, true, false⟩),
  ([O,O,O,O,O,I], ⟨true, false, false, false, true⟩)]

/-- `bFrameMacroblockTypesTable`; the two scalability members, which are `false` and `spatialTemporalWeightClass_0` in every entry, are left out (`/repo/video/macroblock_type.go:57-69`). -/
def bTypeTable : Table MacroblockType := [
  ([I,O], ⟨false, true, true, false, false⟩),
  ([I,I], ⟨false, true, true, true, false⟩),
  ([O,I,O], ⟨false, false, true, false, false⟩),
  ([O,I,I], ⟨false, false, true, true, false⟩),
  ([O,O,I,O], ⟨false, true, false, false, false⟩),
  ([O,O,I,I], ⟨false, true, false, true, false⟩),
  ([O,O,O,I,I], ⟨false, false, false, false, true⟩),
  ([O,O,O,I,O], ⟨true, true, true, true, false⟩),
  ([O,O,O,O,I,I], ⟨true, true, false, true, false⟩),
  ([O,O,O,O,I,O], ⟨true, false, true, true, false⟩),
  ([O,O,O,O,O,I], ⟨true, false, false, false, true⟩)]

/-- coded_block_pattern codes (`/repo/video/coding_block_pattern.go:46-111`). -/
def cbpTable : Table Nat := [
  ([I,I,I], 60),
  ([I,I,O,I], 4),
  ([I,I,O,O], 8),
  ([I,O,I,I], 16),
  ([I,O,I,O], 32),
  ([I,O,O,I,I], 12),
  ([I,O,O,I,O], 48),
  ([I,O,O,O,I], 20),
  ([I,O,O,O,O], 40),
  ([O,I,I,I,I], 28),
  ([O,I,I,I,O], 44),
  ([O,I,I,O,I], 52),
  ([O,I,I,O,O], 56),
  ([O,I,O,I,I], 1),
  ([O,I,O,I,O], 61),
  ([O,I,O,O,I], 2),
  ([O,I,O,O,O], 62),
  ([O,O,I,I,I,I], 24),
  ([O,O,I,I,I,O], 36),
  ([O,O,I,I,O,I], 3),
  ([O,O,I,I,O,O], 63),
  ([O,O,I,O,I,I,I], 5),
  ([O,O,I,O,I,I,O], 9),
  ([O,O,I,O,I,O,I], 17),
  ([O,O,I,O,I,O,O], 33),
  ([O,O,I,O,O,I,I], 6),
  ([O,O,I,O,O,I,O], 10),
  ([O,O,I,O,O,O,I], 18),
  ([O,O,I,O,O,O,O], 34),
  ([O,O,O,I,I,I,I,I], 7),
  ([O,O,O,I,I,I,I,O], 11),
  ([O,O,O,I,I,I,O,I], 19),
  ([O,O,O,I,I,I,O,O], 35),
  ([O,O,O,I,I,O,I,I], 13),
  ([O,O,O,I,I,O,I,O], 49),
  ([O,O,O,I,I,O,O,I], 21),
  ([O,O,O,I,I,O,O,O], 41),
  ([O,O,O,I,O,I,I,I], 14),
  ([O,O,O,I,O,I,I,O], 50),
  ([O,O,O,I,O,I,O,I], 22),
  ([O,O,O,I,O,I,O,O], 42),
  ([O,O,O,I,O,O,I,I], 15),
  ([O,O,O,I,O,O,I,O], 51),
  ([O,O,O,I,O,O,O,I], 23),
  ([O,O,O,I,O,O,O,O], 43),
  ([O,O,O,O,I,I,I,I], 25),
  ([O,O,O,O,I,I,I,O], 37),
  ([O,O,O,O,I,I,O,I], 26),
  ([O,O,O,O,I,I,O,O], 38),
  ([O,O,O,O,I,O,I,I], 29),
  ([O,O,O,O,I,O,I,O], 45),
  ([O,O,O,O,I,O,O,I], 53),
  ([O,O,O,O,I,O,O,O], 57),
  ([O,O,O,O,O,I,I,I], 30),
  ([O,O,O,O,O,I,I,O], 46),
  ([O,O,O,O,O,I,O,I], 54),
  ([O,O,O,O,O,I,O,O], 58),
  ([O,O,O,O,O,O,I,I,I], 31),
  ([O,O,O,O,O,O,I,I,O], 47),
  ([O,O,O,O,O,O,I,O,I], 55),
  ([O,O,O,O,O,O,I,O,O], 59),
  ([O,O,O,O,O,O,O,I,I], 27),
  ([O,O,O,O,O,O,O,I,O], 39),
  ([O,O,O,O,O,O,O,O,I], 0)]

/-- motion_code codes; the spaces inside and after the Go keys are dropped (`/repo/video/motion_vectors.go:204-238`). -/
def motionTable : Table Int := [
  ([O,O,O,O,O,O,I,I,O,O,I], (-16)),
  ([O,O,O,O,O,O,I,I,O,I,I], (-15)),
  ([O,O,O,O,O,O,I,I,I,O,I], (-14)),
  ([O,O,O,O,O,O,I,I,I,I,I], (-13)),
  ([O,O,O,O,O,I,O,O,O,O,I], (-12)),
  ([O,O,O,O,O,I,O,O,O,I,I], (-11)),
  ([O,O,O,O,O,I,O,O,I,I], (-10)),
  ([O,O,O,O,O,I,O,I,O,I], (-9)),
  ([O,O,O,O,O,I,O,I,I,I], (-8)),
  ([O,O,O,O,O,I,I,I], (-7)),
  ([O,O,O,O,I,O,O,I], (-6)),
  ([O,O,O,O,I,O,I,I], (-5)),
  ([O,O,O,O,I,I,I], (-4)),
  ([O,O,O,I,I], (-3)),
  ([O,O,I,I], (-2)),
  ([O,I,I], (-1)),
  ([I], 0),
  ([O,I,O], 1),
  ([O,O,I,O], 2),
  ([O,O,O,I,O], 3),
  ([O,O,O,O,I,I,O], 4),
  ([O,O,O,O,I,O,I,O], 5),
  ([O,O,O,O,I,O,O,O], 6),
  ([O,O,O,O,O,I,I,O], 7),
  ([O,O,O,O,O,I,O,I,I,O], 8),
  ([O,O,O,O,O,I,O,I,O,O], 9),
  ([O,O,O,O,O,I,O,O,I,O], 10),
  ([O,O,O,O,O,I,O,O,O,I,O], 11),
  ([O,O,O,O,O,I,O,O,O,O,O], 12),
  ([O,O,O,O,O,O,I,I,I,I,O], 13),
  ([O,O,O,O,O,O,I,I,I,O,O], 14),
  ([O,O,O,O,O,O,I,I,O,I,O], 15),
  ([O,O,O,O,O,O,I,I,O,O,O], 16)]

/-- dct_dc_size_luminance codes (`/repo/video/dtc_coefficients.go:559-572`). -/
def dcLumaTable : Table Nat := [
  ([I,O,O], 0),
  ([O,O], 1),
  ([O,I], 2),
  ([I,O,I], 3),
  ([I,I,O], 4),
  ([I,I,I,O], 5),
  ([I,I,I,I,O], 6),
  ([I,I,I,I,I,O], 7),
  ([I,I,I,I,I,I,O], 8),
  ([I,I,I,I,I,I,I,O], 9),
  ([I,I,I,I,I,I,I,I,O], 10),
  ([I,I,I,I,I,I,I,I,I], 11)]

/-- dct_dc_size_chrominance codes (`/repo/video/dtc_coefficients.go:575-588`). -/
def dcChromaTable : Table Nat := [
  ([O,O], 0),
  ([O,I], 1),
  ([I,O], 2),
  ([I,I,O], 3),
  ([I,I,I,O], 4),
  ([I,I,I,I,O], 5),
  ([I,I,I,I,I,O], 6),
  ([I,I,I,I,I,I,O], 7),
  ([I,I,I,I,I,I,I,O], 8),
  ([I,I,I,I,I,I,I,I,O], 9),
  ([I,I,I,I,I,I,I,I,I,O], 10),
  ([I,I,I,I,I,I,I,I,I,I], 11)]

/-- `dctCoefficientTables[0][0]` (`/repo/video/dtc_coefficients.go:69-185`). -/
def dct0Initial : Table DctSym := [
  ([I], .coef 0 1),
  ([O,I,I], .coef 1 1),
  ([O,I,O,O], .coef 0 2),
  ([O,I,O,I], .coef 2 1),
  ([O,O,I,O,I], .coef 0 3),
  ([O,O,I,I,I], .coef 3 1),
  ([O,O,I,I,O], .coef 4 1),
  ([O,O,O,I,I,O], .coef 1 2),
  ([O,O,O,I,I,I], .coef 5 1),
  ([O,O,O,I,O,I], .coef 6 1),
  ([O,O,O,I,O,O], .coef 7 1),
  ([O,O,O,O,I,I,O], .coef 0 4),
  ([O,O,O,O,I,O,O], .coef 2 2),
  ([O,O,O,O,I,I,I], .coef 8 1),
  ([O,O,O,O,I,O,I], .coef 9 1),
  ([O,O,O,O,O,I], .escape),
  ([O,O,I,O,O,I,I,O], .coef 0 5),
  ([O,O,I,O,O,O,O,I], .coef 0 6),
  ([O,O,I,O,O,I,O,I], .coef 1 3),
  ([O,O,I,O,O,I,O,O], .coef 3 2),
  ([O,O,I,O,O,I,I,I], .coef 10 1),
  ([O,O,I,O,O,O,I,I], .coef 11 1),
  ([O,O,I,O,O,O,I,O], .coef 12 1),
  ([O,O,I,O,O,O,O,O], .coef 13 1),
  ([O,O,O,O,O,O,I,O,I,O], .coef 0 7),
  ([O,O,O,O,O,O,I,I,O,O], .coef 1 4),
  ([O,O,O,O,O,O,I,O,I,I], .coef 2 3),
  ([O,O,O,O,O,O,I,I,I,I], .coef 4 2),
  ([O,O,O,O,O,O,I,O,O,I], .coef 5 2),
  ([O,O,O,O,O,O,I,I,I,O], .coef 14 1),
  ([O,O,O,O,O,O,I,I,O,I], .coef 15 1),
  ([O,O,O,O,O,O,I,O,O,O], .coef 16 1),
  ([O,O,O,O,O,O,O,I,I,I,O,I], .coef 0 8),
  ([O,O,O,O,O,O,O,I,I,O,O,O], .coef 0 9),
  ([O,O,O,O,O,O,O,I,O,O,I,I], .coef 0 10),
  ([O,O,O,O,O,O,O,I,O,O,O,O], .coef 0 11),
  ([O,O,O,O,O,O,O,I,I,O,I,I], .coef 1 5),
  ([O,O,O,O,O,O,O,I,O,I,O,O], .coef 2 4),
  ([O,O,O,O,O,O,O,I,I,I,O,O], .coef 3 3),
  ([O,O,O,O,O,O,O,I,O,O,I,O], .coef 4 3),
  ([O,O,O,O,O,O,O,I,I,I,I,O], .coef 6 2),
  ([O,O,O,O,O,O,O,I,O,I,O,I], .coef 7 2),
  ([O,O,O,O,O,O,O,I,O,O,O,I], .coef 8 2),
  ([O,O,O,O,O,O,O,I,I,I,I,I], .coef 17 1),
  ([O,O,O,O,O,O,O,I,I,O,I,O], .coef 18 1),
  ([O,O,O,O,O,O,O,I,I,O,O,I], .coef 19 1),
  ([O,O,O,O,O,O,O,I,O,I,I,I], .coef 20 1),
  ([O,O,O,O,O,O,O,I,O,I,I,O], .coef 21 1),
  ([O,O,O,O,O,O,O,O,I,I,O,I,O], .coef 0 12),
  ([O,O,O,O,O,O,O,O,I,I,O,O,I], .coef 0 13),
  ([O,O,O,O,O,O,O,O,I,I,O,O,O], .coef 0 14),
  ([O,O,O,O,O,O,O,O,I,O,I,I,I], .coef 0 15),
  ([O,O,O,O,O,O,O,O,I,O,I,I,O], .coef 1 6),
  ([O,O,O,O,O,O,O,O,I,O,I,O,I], .coef 1 7),
  ([O,O,O,O,O,O,O,O,I,O,I,O,O], .coef 2 5),
  ([O,O,O,O,O,O,O,O,I,O,O,I,I], .coef 3 4),
  ([O,O,O,O,O,O,O,O,I,O,O,I,O], .coef 5 3),
  ([O,O,O,O,O,O,O,O,I,O,O,O,I], .coef 9 2),
  ([O,O,O,O,O,O,O,O,I,O,O,O,O], .coef 10 2),
  ([O,O,O,O,O,O,O,O,I,I,I,I,I], .coef 22 1),
  ([O,O,O,O,O,O,O,O,I,I,I,I,O], .coef 23 1),
  ([O,O,O,O,O,O,O,O,I,I,I,O,I], .coef 24 1),
  ([O,O,O,O,O,O,O,O,I,I,I,O,O], .coef 25 1),
  ([O,O,O,O,O,O,O,O,I,I,O,I,I], .coef 26 1),
  ([O,O,O,O,O,O,O,O,O,I,I,I,I,I], .coef 0 16),
  ([O,O,O,O,O,O,O,O,O,I,I,I,I,O], .coef 0 17),
  ([O,O,O,O,O,O,O,O,O,I,I,I,O,I], .coef 0 18),
  ([O,O,O,O,O,O,O,O,O,I,I,I,O,O], .coef 0 19),
  ([O,O,O,O,O,O,O,O,O,I,I,O,I,I], .coef 0 20),
  ([O,O,O,O,O,O,O,O,O,I,I,O,I,O], .coef 0 21),
  ([O,O,O,O,O,O,O,O,O,I,I,O,O,I], .coef 0 22),
  ([O,O,O,O,O,O,O,O,O,I,I,O,O,O], .coef 0 23),
  ([O,O,O,O,O,O,O,O,O,I,O,I,I,I], .coef 0 24),
  ([O,O,O,O,O,O,O,O,O,I,O,I,I,O], .coef 0 25),
  ([O,O,O,O,O,O,O,O,O,I,O,I,O,I], .coef 0 26),
  ([O,O,O,O,O,O,O,O,O,I,O,I,O,O], .coef 0 27),
  ([O,O,O,O,O,O,O,O,O,I,O,O,I,I], .coef 0 28),
  ([O,O,O,O,O,O,O,O,O,I,O,O,I,O], .coef 0 29),
  ([O,O,O,O,O,O,O,O,O,I,O,O,O,I], .coef 0 30),
  ([O,O,O,O,O,O,O,O,O,I,O,O,O,O], .coef 0 31),
  ([O,O,O,O,O,O,O,O,O,O,I,I,O,O,O], .coef 0 32),
  ([O,O,O,O,O,O,O,O,O,O,I,O,I,I,I], .coef 0 33),
  ([O,O,O,O,O,O,O,O,O,O,I,O,I,I,O], .coef 0 34),
  ([O,O,O,O,O,O,O,O,O,O,I,O,I,O,I], .coef 0 35),
  ([O,O,O,O,O,O,O,O,O,O,I,O,I,O,O], .coef 0 36),
  ([O,O,O,O,O,O,O,O,O,O,I,O,O,I,I], .coef 0 37),
  ([O,O,O,O,O,O,O,O,O,O,I,O,O,I,O], .coef 0 38),
  ([O,O,O,O,O,O,O,O,O,O,I,O,O,O,I], .coef 0 39),
  ([O,O,O,O,O,O,O,O,O,O,I,O,O,O,O], .coef 0 40),
  ([O,O,O,O,O,O,O,O,O,O,I,I,I,I,I], .coef 1 8),
  ([O,O,O,O,O,O,O,O,O,O,I,I,I,I,O], .coef 1 9),
  ([O,O,O,O,O,O,O,O,O,O,I,I,I,O,I], .coef 1 10),
  ([O,O,O,O,O,O,O,O,O,O,I,I,I,O,O], .coef 1 11),
  ([O,O,O,O,O,O,O,O,O,O,I,I,O,I,I], .coef 1 12),
  ([O,O,O,O,O,O,O,O,O,O,I,I,O,I,O], .coef 1 13),
  ([O,O,O,O,O,O,O,O,O,O,I,I,O,O,I], .coef 1 14),
  ([O,O,O,O,O,O,O,O,O,O,O,I,O,O,I,I], .coef 1 15),
  ([O,O,O,O,O,O,O,O,O,O,O,I,O,O,I,O], .coef 1 16),
  ([O,O,O,O,O,O,O,O,O,O,O,I,O,O,O,I], .coef 1 17),
  ([O,O,O,O,O,O,O,O,O,O,O,I,O,O,O,O], .coef 1 18),
  ([O,O,O,O,O,O,O,O,O,O,O,I,O,I,O,O], .coef 6 3),
  ([O,O,O,O,O,O,O,O,O,O,O,I,I,O,I,O], .coef 11 2),
  ([O,O,O,O,O,O,O,O,O,O,O,I,I,O,O,I], .coef 12 2),
  ([O,O,O,O,O,O,O,O,O,O,O,I,I,O,O,O], .coef 13 2),
  ([O,O,O,O,O,O,O,O,O,O,O,I,O,I,I,I], .coef 14 2),
  ([O,O,O,O,O,O,O,O,O,O,O,I,O,I,I,O], .coef 15 2),
  ([O,O,O,O,O,O,O,O,O,O,O,I,O,I,O,I], .coef 16 2),
  ([O,O,O,O,O,O,O,O,O,O,O,I,I,I,I,I], .coef 27 1),
  ([O,O,O,O,O,O,O,O,O,O,O,I,I,I,I,O], .coef 28 1),
  ([O,O,O,O,O,O,O,O,O,O,O,I,I,I,O,I], .coef 29 1),
  ([O,O,O,O,O,O,O,O,O,O,O,I,I,I,O,O], .coef 30 1),
  ([O,O,O,O,O,O,O,O,O,O,O,I,I,O,I,I], .coef 31 1)]

/-- `dctCoefficientTables[0][1]` (`/repo/video/dtc_coefficients.go:185-302`). -/
def dct0Rest : Table DctSym := [
  ([I,O], .eob),
  ([I,I], .coef 0 1),
  ([O,I,I], .coef 1 1),
  ([O,I,O,O], .coef 0 2),
  ([O,I,O,I], .coef 2 1),
  ([O,O,I,O,I], .coef 0 3),
  ([O,O,I,I,I], .coef 3 1),
  ([O,O,I,I,O], .coef 4 1),
  ([O,O,O,I,I,O], .coef 1 2),
  ([O,O,O,I,I,I], .coef 5 1),
  ([O,O,O,I,O,I], .coef 6 1),
  ([O,O,O,I,O,O], .coef 7 1),
  ([O,O,O,O,I,I,O], .coef 0 4),
  ([O,O,O,O,I,O,O], .coef 2 2),
  ([O,O,O,O,I,I,I], .coef 8 1),
  ([O,O,O,O,I,O,I], .coef 9 1),
  ([O,O,O,O,O,I], .escape),
  ([O,O,I,O,O,I,I,O], .coef 0 5),
  ([O,O,I,O,O,O,O,I], .coef 0 6),
  ([O,O,I,O,O,I,O,I], .coef 1 3),
  ([O,O,I,O,O,I,O,O], .coef 3 2),
  ([O,O,I,O,O,I,I,I], .coef 10 1),
  ([O,O,I,O,O,O,I,I], .coef 11 1),
  ([O,O,I,O,O,O,I,O], .coef 12 1),
  ([O,O,I,O,O,O,O,O], .coef 13 1),
  ([O,O,O,O,O,O,I,O,I,O], .coef 0 7),
  ([O,O,O,O,O,O,I,I,O,O], .coef 1 4),
  ([O,O,O,O,O,O,I,O,I,I], .coef 2 3),
  ([O,O,O,O,O,O,I,I,I,I], .coef 4 2),
  ([O,O,O,O,O,O,I,O,O,I], .coef 5 2),
  ([O,O,O,O,O,O,I,I,I,O], .coef 14 1),
  ([O,O,O,O,O,O,I,I,O,I], .coef 15 1),
  ([O,O,O,O,O,O,I,O,O,O], .coef 16 1),
  ([O,O,O,O,O,O,O,I,I,I,O,I], .coef 0 8),
  ([O,O,O,O,O,O,O,I,I,O,O,O], .coef 0 9),
  ([O,O,O,O,O,O,O,I,O,O,I,I], .coef 0 10),
  ([O,O,O,O,O,O,O,I,O,O,O,O], .coef 0 11),
  ([O,O,O,O,O,O,O,I,I,O,I,I], .coef 1 5),
  ([O,O,O,O,O,O,O,I,O,I,O,O], .coef 2 4),
  ([O,O,O,O,O,O,O,I,I,I,O,O], .coef 3 3),
  ([O,O,O,O,O,O,O,I,O,O,I,O], .coef 4 3),
  ([O,O,O,O,O,O,O,I,I,I,I,O], .coef 6 2),
  ([O,O,O,O,O,O,O,I,O,I,O,I], .coef 7 2),
  ([O,O,O,O,O,O,O,I,O,O,O,I], .coef 8 2),
  ([O,O,O,O,O,O,O,I,I,I,I,I], .coef 17 1),
  ([O,O,O,O,O,O,O,I,I,O,I,O], .coef 18 1),
  ([O,O,O,O,O,O,O,I,I,O,O,I], .coef 19 1),
  ([O,O,O,O,O,O,O,I,O,I,I,I], .coef 20 1),
  ([O,O,O,O,O,O,O,I,O,I,I,O], .coef 21 1),
  ([O,O,O,O,O,O,O,O,I,I,O,I,O], .coef 0 12),
  ([O,O,O,O,O,O,O,O,I,I,O,O,I], .coef 0 13),
  ([O,O,O,O,O,O,O,O,I,I,O,O,O], .coef 0 14),
  ([O,O,O,O,O,O,O,O,I,O,I,I,I], .coef 0 15),
  ([O,O,O,O,O,O,O,O,I,O,I,I,O], .coef 1 6),
  ([O,O,O,O,O,O,O,O,I,O,I,O,I], .coef 1 7),
  ([O,O,O,O,O,O,O,O,I,O,I,O,O], .coef 2 5),
  ([O,O,O,O,O,O,O,O,I,O,O,I,I], .coef 3 4),
  ([O,O,O,O,O,O,O,O,I,O,O,I,O], .coef 5 3),
  ([O,O,O,O,O,O,O,O,I,O,O,O,I], .coef 9 2),
  ([O,O,O,O,O,O,O,O,I,O,O,O,O], .coef 10 2),
  ([O,O,O,O,O,O,O,O,I,I,I,I,I], .coef 22 1),
  ([O,O,O,O,O,O,O,O,I,I,I,I,O], .coef 23 1),
  ([O,O,O,O,O,O,O,O,I,I,I,O,I], .coef 24 1),
  ([O,O,O,O,O,O,O,O,I,I,I,O,O], .coef 25 1),
  ([O,O,O,O,O,O,O,O,I,I,O,I,I], .coef 26 1),
  ([O,O,O,O,O,O,O,O,O,I,I,I,I,I], .coef 0 16),
  ([O,O,O,O,O,O,O,O,O,I,I,I,I,O], .coef 0 17),
  ([O,O,O,O,O,O,O,O,O,I,I,I,O,I], .coef 0 18),
  ([O,O,O,O,O,O,O,O,O,I,I,I,O,O], .coef 0 19),
  ([O,O,O,O,O,O,O,O,O,I,I,O,I,I], .coef 0 20),
  ([O,O,O,O,O,O,O,O,O,I,I,O,I,O], .coef 0 21),
  ([O,O,O,O,O,O,O,O,O,I,I,O,O,I], .coef 0 22),
  ([O,O,O,O,O,O,O,O,O,I,I,O,O,O], .coef 0 23),
  ([O,O,O,O,O,O,O,O,O,I,O,I,I,I], .coef 0 24),
  ([O,O,O,O,O,O,O,O,O,I,O,I,I,O], .coef 0 25),
  ([O,O,O,O,O,O,O,O,O,I,O,I,O,I], .coef 0 26),
  ([O,O,O,O,O,O,O,O,O,I,O,I,O,O], .coef 0 27),
  ([O,O,O,O,O,O,O,O,O,I,O,O,I,I], .coef 0 28),
  ([O,O,O,O,O,O,O,O,O,I,O,O,I,O], .coef 0 29),
  ([O,O,O,O,O,O,O,O,O,I,O,O,O,I], .coef 0 30),
  ([O,O,O,O,O,O,O,O,O,I,O,O,O,O], .coef 0 31),
  ([O,O,O,O,O,O,O,O,O,O,I,I,O,O,O], .coef 0 32),
  ([O,O,O,O,O,O,O,O,O,O,I,O,I,I,I], .coef 0 33),
  ([O,O,O,O,O,O,O,O,O,O,I,O,I,I,O], .coef 0 34),
  ([O,O,O,O,O,O,O,O,O,O,I,O,I,O,I], .coef 0 35),
  ([O,O,O,O,O,O,O,O,O,O,I,O,I,O,O], .coef 0 36),
  ([O,O,O,O,O,O,O,O,O,O,I,O,O,I,I], .coef 0 37),
  ([O,O,O,O,O,O,O,O,O,O,I,O,O,I,O], .coef 0 38),
  ([O,O,O,O,O,O,O,O,O,O,I,O,O,O,I], .coef 0 39),
  ([O,O,O,O,O,O,O,O,O,O,I,O,O,O,O], .coef 0 40),
  ([O,O,O,O,O,O,O,O,O,O,I,I,I,I,I], .coef 1 8),
  ([O,O,O,O,O,O,O,O,O,O,I,I,I,I,O], .coef 1 9),
  ([O,O,O,O,O,O,O,O,O,O,I,I,I,O,I], .coef 1 10),
  ([O,O,O,O,O,O,O,O,O,O,I,I,I,O,O], .coef 1 11),
  ([O,O,O,O,O,O,O,O,O,O,I,I,O,I,I], .coef 1 12),
  ([O,O,O,O,O,O,O,O,O,O,I,I,O,I,O], .coef 1 13),
  ([O,O,O,O,O,O,O,O,O,O,I,I,O,O,I], .coef 1 14),
  ([O,O,O,O,O,O,O,O,O,O,O,I,O,O,I,I], .coef 1 15),
  ([O,O,O,O,O,O,O,O,O,O,O,I,O,O,I,O], .coef 1 16),
  ([O,O,O,O,O,O,O,O,O,O,O,I,O,O,O,I], .coef 1 17),
  ([O,O,O,O,O,O,O,O,O,O,O,I,O,O,O,O], .coef 1 18),
  ([O,O,O,O,O,O,O,O,O,O,O,I,O,I,O,O], .coef 6 3),
  ([O,O,O,O,O,O,O,O,O,O,O,I,I,O,I,O], .coef 11 2),
  ([O,O,O,O,O,O,O,O,O,O,O,I,I,O,O,I], .coef 12 2),
  ([O,O,O,O,O,O,O,O,O,O,O,I,I,O,O,O], .coef 13 2),
  ([O,O,O,O,O,O,O,O,O,O,O,I,O,I,I,I], .coef 14 2),
  ([O,O,O,O,O,O,O,O,O,O,O,I,O,I,I,O], .coef 15 2),
  ([O,O,O,O,O,O,O,O,O,O,O,I,O,I,O,I], .coef 16 2),
  ([O,O,O,O,O,O,O,O,O,O,O,I,I,I,I,I], .coef 27 1),
  ([O,O,O,O,O,O,O,O,O,O,O,I,I,I,I,O], .coef 28 1),
  ([O,O,O,O,O,O,O,O,O,O,O,I,I,I,O,I], .coef 29 1),
  ([O,O,O,O,O,O,O,O,O,O,O,I,I,I,O,O], .coef 30 1),
  ([O,O,O,O,O,O,O,O,O,O,O,I,I,O,I,I], .coef 31 1)]

/-- `dctCoefficientTables[1][0]` (`/repo/video/dtc_coefficients.go:305-421`). -/
def dct1Initial : Table DctSym := [
  ([I,O], .coef 0 1),
  ([O,I,O], .coef 1 1),
  ([I,I,O], .coef 0 2),
  ([O,O,I,O,I], .coef 2 1),
  ([O,I,I,I], .coef 0 3),
  ([O,O,I,I,I], .coef 3 1),
  ([O,O,O,I,I,O], .coef 4 1),
  ([O,O,I,I,O], .coef 1 2),
  ([O,O,O,I,I,I], .coef 5 1),
  ([O,O,O,O,I,I,O], .coef 6 1),
  ([O,O,O,O,I,O,O], .coef 7 1),
  ([I,I,I,O,O], .coef 0 4),
  ([O,O,O,O,I,I,I], .coef 2 2),
  ([O,O,O,O,I,O,I], .coef 8 1),
  ([I,I,I,I,O,O,O], .coef 9 1),
  ([O,O,O,O,O,I], .escape),
  ([I,I,I,O,I], .coef 0 5),
  ([O,O,O,I,O,I], .coef 0 6),
  ([I,I,I,I,O,O,I], .coef 1 3),
  ([O,O,I,O,O,I,I,O], .coef 3 2),
  ([I,I,I,I,O,I,O], .coef 10 1),
  ([O,O,I,O,O,O,O,I], .coef 11 1),
  ([O,O,I,O,O,I,O,I], .coef 12 1),
  ([O,O,I,O,O,I,O,O], .coef 13 1),
  ([O,O,O,I,O,O], .coef 0 7),
  ([O,O,I,O,O,I,I,I], .coef 1 4),
  ([I,I,I,I,I,I,O,O], .coef 2 3),
  ([I,I,I,I,I,I,O,I], .coef 4 2),
  ([O,O,O,O,O,O,I,O,O], .coef 5 2),
  ([O,O,O,O,O,O,I,O,I], .coef 14 1),
  ([O,O,O,O,O,O,I,I,I], .coef 15 1),
  ([O,O,O,O,O,O,I,I,O,I], .coef 16 1),
  ([I,I,I,I,O,I,I], .coef 0 8),
  ([I,I,I,I,I,O,O], .coef 0 9),
  ([O,O,I,O,O,O,I,I], .coef 0 10),
  ([O,O,I,O,O,O,I,O], .coef 0 11),
  ([O,O,I,O,O,O,O,O], .coef 1 5),
  ([O,O,O,O,O,O,I,I,O,O], .coef 2 4),
  ([O,O,O,O,O,O,O,I,I,I,O,O], .coef 3 3),
  ([O,O,O,O,O,O,O,I,O,O,I,O], .coef 4 3),
  ([O,O,O,O,O,O,O,I,I,I,I,O], .coef 6 2),
  ([O,O,O,O,O,O,O,I,O,I,O,I], .coef 7 2),
  ([O,O,O,O,O,O,O,I,O,O,O,I], .coef 8 2),
  ([O,O,O,O,O,O,O,I,I,I,I,I], .coef 17 1),
  ([O,O,O,O,O,O,O,I,I,O,I,O], .coef 18 1),
  ([O,O,O,O,O,O,O,I,I,O,O,I], .coef 19 1),
  ([O,O,O,O,O,O,O,I,O,I,I,I], .coef 20 1),
  ([O,O,O,O,O,O,O,I,O,I,I,O], .coef 21 1),
  ([I,I,I,I,I,O,I,O], .coef 0 12),
  ([I,I,I,I,I,O,I,I], .coef 0 13),
  ([I,I,I,I,I,I,I,O], .coef 0 14),
  ([I,I,I,I,I,I,I,I], .coef 0 15),
  ([O,O,O,O,O,O,O,O,I,O,I,I,O], .coef 1 6),
  ([O,O,O,O,O,O,O,O,I,O,I,O,I], .coef 1 7),
  ([O,O,O,O,O,O,O,O,I,O,I,O,O], .coef 2 5),
  ([O,O,O,O,O,O,O,O,I,O,O,I,I], .coef 3 4),
  ([O,O,O,O,O,O,O,O,I,O,O,I,O], .coef 5 3),
  ([O,O,O,O,O,O,O,O,I,O,O,O,I], .coef 9 2),
  ([O,O,O,O,O,O,O,O,I,O,O,O,O], .coef 10 2),
  ([O,O,O,O,O,O,O,O,I,I,I,I,I], .coef 22 1),
  ([O,O,O,O,O,O,O,O,I,I,I,I,O], .coef 23 1),
  ([O,O,O,O,O,O,O,O,I,I,I,O,I], .coef 24 1),
  ([O,O,O,O,O,O,O,O,I,I,I,O,O], .coef 25 1),
  ([O,O,O,O,O,O,O,O,I,I,O,I,I], .coef 26 1),
  ([O,O,O,O,O,O,O,O,O,I,I,I,I,I], .coef 0 16),
  ([O,O,O,O,O,O,O,O,O,I,I,I,I,O], .coef 0 17),
  ([O,O,O,O,O,O,O,O,O,I,I,I,O,I], .coef 0 18),
  ([O,O,O,O,O,O,O,O,O,I,I,I,O,O], .coef 0 19),
  ([O,O,O,O,O,O,O,O,O,I,I,O,I,I], .coef 0 20),
  ([O,O,O,O,O,O,O,O,O,I,I,O,I,O], .coef 0 21),
  ([O,O,O,O,O,O,O,O,O,I,I,O,O,I], .coef 0 22),
  ([O,O,O,O,O,O,O,O,O,I,I,O,O,O], .coef 0 23),
  ([O,O,O,O,O,O,O,O,O,I,O,I,I,I], .coef 0 24),
  ([O,O,O,O,O,O,O,O,O,I,O,I,I,O], .coef 0 25),
  ([O,O,O,O,O,O,O,O,O,I,O,I,O,I], .coef 0 26),
  ([O,O,O,O,O,O,O,O,O,I,O,I,O,O], .coef 0 27),
  ([O,O,O,O,O,O,O,O,O,I,O,O,I,I], .coef 0 28),
  ([O,O,O,O,O,O,O,O,O,I,O,O,I,O], .coef 0 29),
  ([O,O,O,O,O,O,O,O,O,I,O,O,O,I], .coef 0 30),
  ([O,O,O,O,O,O,O,O,O,I,O,O,O,O], .coef 0 31),
  ([O,O,O,O,O,O,O,O,O,O,I,I,O,O,O], .coef 0 32),
  ([O,O,O,O,O,O,O,O,O,O,I,O,I,I,I], .coef 0 33),
  ([O,O,O,O,O,O,O,O,O,O,I,O,I,I,O], .coef 0 34),
  ([O,O,O,O,O,O,O,O,O,O,I,O,I,O,I], .coef 0 35),
  ([O,O,O,O,O,O,O,O,O,O,I,O,I,O,O], .coef 0 36),
  ([O,O,O,O,O,O,O,O,O,O,I,O,O,I,I], .coef 0 37),
  ([O,O,O,O,O,O,O,O,O,O,I,O,O,I,O], .coef 0 38),
  ([O,O,O,O,O,O,O,O,O,O,I,O,O,O,I], .coef 0 39),
  ([O,O,O,O,O,O,O,O,O,O,I,O,O,O,O], .coef 0 40),
  ([O,O,O,O,O,O,O,O,O,O,I,I,I,I,I], .coef 1 8),
  ([O,O,O,O,O,O,O,O,O,O,I,I,I,I,O], .coef 1 9),
  ([O,O,O,O,O,O,O,O,O,O,I,I,I,O,I], .coef 1 10),
  ([O,O,O,O,O,O,O,O,O,O,I,I,I,O,O], .coef 1 11),
  ([O,O,O,O,O,O,O,O,O,O,I,I,O,I,I], .coef 1 12),
  ([O,O,O,O,O,O,O,O,O,O,I,I,O,I,O], .coef 1 13),
  ([O,O,O,O,O,O,O,O,O,O,I,I,O,O,I], .coef 1 14),
  ([O,O,O,O,O,O,O,O,O,O,O,I,O,O,I,I], .coef 1 15),
  ([O,O,O,O,O,O,O,O,O,O,O,I,O,O,I,O], .coef 1 16),
  ([O,O,O,O,O,O,O,O,O,O,O,I,O,O,O,I], .coef 1 17),
  ([O,O,O,O,O,O,O,O,O,O,O,I,O,O,O,O], .coef 1 18),
  ([O,O,O,O,O,O,O,O,O,O,O,I,O,I,O,O], .coef 6 3),
  ([O,O,O,O,O,O,O,O,O,O,O,I,I,O,I,O], .coef 11 2),
  ([O,O,O,O,O,O,O,O,O,O,O,I,I,O,O,I], .coef 12 2),
  ([O,O,O,O,O,O,O,O,O,O,O,I,I,O,O,O], .coef 13 2),
  ([O,O,O,O,O,O,O,O,O,O,O,I,O,I,I,I], .coef 14 2),
  ([O,O,O,O,O,O,O,O,O,O,O,I,O,I,I,O], .coef 15 2),
  ([O,O,O,O,O,O,O,O,O,O,O,I,O,I,O,I], .coef 16 2),
  ([O,O,O,O,O,O,O,O,O,O,O,I,I,I,I,I], .coef 27 1),
  ([O,O,O,O,O,O,O,O,O,O,O,I,I,I,I,O], .coef 28 1),
  ([O,O,O,O,O,O,O,O,O,O,O,I,I,I,O,I], .coef 29 1),
  ([O,O,O,O,O,O,O,O,O,O,O,I,I,I,O,O], .coef 30 1),
  ([O,O,O,O,O,O,O,O,O,O,O,I,I,O,I,I], .coef 31 1)]

/-- `dctCoefficientTables[1][1]` (`/repo/video/dtc_coefficients.go:421-538`). -/
def dct1Rest : Table DctSym := [
  ([O,I,I,O], .eob),
  ([I,O], .coef 0 1),
  ([O,I,O], .coef 1 1),
  ([I,I,O], .coef 0 2),
  ([O,O,I,O,I], .coef 2 1),
  ([O,I,I,I], .coef 0 3),
  ([O,O,I,I,I], .coef 3 1),
  ([O,O,O,I,I,O], .coef 4 1),
  ([O,O,I,I,O], .coef 1 2),
  ([O,O,O,I,I,I], .coef 5 1),
  ([O,O,O,O,I,I,O], .coef 6 1),
  ([O,O,O,O,I,O,O], .coef 7 1),
  ([I,I,I,O,O], .coef 0 4),
  ([O,O,O,O,I,I,I], .coef 2 2),
  ([O,O,O,O,I,O,I], .coef 8 1),
  ([I,I,I,I,O,O,O], .coef 9 1),
  ([O,O,O,O,O,I], .escape),
  ([I,I,I,O,I], .coef 0 5),
  ([O,O,O,I,O,I], .coef 0 6),
  ([I,I,I,I,O,O,I], .coef 1 3),
  ([O,O,I,O,O,I,I,O], .coef 3 2),
  ([I,I,I,I,O,I,O], .coef 10 1),
  ([O,O,I,O,O,O,O,I], .coef 11 1),
  ([O,O,I,O,O,I,O,I], .coef 12 1),
  ([O,O,I,O,O,I,O,O], .coef 13 1),
  ([O,O,O,I,O,O], .coef 0 7),
  ([O,O,I,O,O,I,I,I], .coef 1 4),
  ([I,I,I,I,I,I,O,O], .coef 2 3),
  ([I,I,I,I,I,I,O,I], .coef 4 2),
  ([O,O,O,O,O,O,I,O,O], .coef 5 2),
  ([O,O,O,O,O,O,I,O,I], .coef 14 1),
  ([O,O,O,O,O,O,I,I,I], .coef 15 1),
  ([O,O,O,O,O,O,I,I,O,I], .coef 16 1),
  ([I,I,I,I,O,I,I], .coef 0 8),
  ([I,I,I,I,I,O,O], .coef 0 9),
  ([O,O,I,O,O,O,I,I], .coef 0 10),
  ([O,O,I,O,O,O,I,O], .coef 0 11),
  ([O,O,I,O,O,O,O,O], .coef 1 5),
  ([O,O,O,O,O,O,I,I,O,O], .coef 2 4),
  ([O,O,O,O,O,O,O,I,I,I,O,O], .coef 3 3),
  ([O,O,O,O,O,O,O,I,O,O,I,O], .coef 4 3),
  ([O,O,O,O,O,O,O,I,I,I,I,O], .coef 6 2),
  ([O,O,O,O,O,O,O,I,O,I,O,I], .coef 7 2),
  ([O,O,O,O,O,O,O,I,O,O,O,I], .coef 8 2),
  ([O,O,O,O,O,O,O,I,I,I,I,I], .coef 17 1),
  ([O,O,O,O,O,O,O,I,I,O,I,O], .coef 18 1),
  ([O,O,O,O,O,O,O,I,I,O,O,I], .coef 19 1),
  ([O,O,O,O,O,O,O,I,O,I,I,I], .coef 20 1),
  ([O,O,O,O,O,O,O,I,O,I,I,O], .coef 21 1),
  ([I,I,I,I,I,O,I,O], .coef 0 12),
  ([I,I,I,I,I,O,I,I], .coef 0 13),
  ([I,I,I,I,I,I,I,O], .coef 0 14),
  ([I,I,I,I,I,I,I,I], .coef 0 15),
  ([O,O,O,O,O,O,O,O,I,O,I,I,O], .coef 1 6),
  ([O,O,O,O,O,O,O,O,I,O,I,O,I], .coef 1 7),
  ([O,O,O,O,O,O,O,O,I,O,I,O,O], .coef 2 5),
  ([O,O,O,O,O,O,O,O,I,O,O,I,I], .coef 3 4),
  ([O,O,O,O,O,O,O,O,I,O,O,I,O], .coef 5 3),
  ([O,O,O,O,O,O,O,O,I,O,O,O,I], .coef 9 2),
  ([O,O,O,O,O,O,O,O,I,O,O,O,O], .coef 10 2),
  ([O,O,O,O,O,O,O,O,I,I,I,I,I], .coef 22 1),
  ([O,O,O,O,O,O,O,O,I,I,I,I,O], .coef 23 1),
  ([O,O,O,O,O,O,O,O,I,I,I,O,I], .coef 24 1),
  ([O,O,O,O,O,O,O,O,I,I,I,O,O], .coef 25 1),
  ([O,O,O,O,O,O,O,O,I,I,O,I,I], .coef 26 1),
  ([O,O,O,O,O,O,O,O,O,I,I,I,I,I], .coef 0 16),
  ([O,O,O,O,O,O,O,O,O,I,I,I,I,O], .coef 0 17),
  ([O,O,O,O,O,O,O,O,O,I,I,I,O,I], .coef 0 18),
  ([O,O,O,O,O,O,O,O,O,I,I,I,O,O], .coef 0 19),
  ([O,O,O,O,O,O,O,O,O,I,I,O,I,I], .coef 0 20),
  ([O,O,O,O,O,O,O,O,O,I,I,O,I,O], .coef 0 21),
  ([O,O,O,O,O,O,O,O,O,I,I,O,O,I], .coef 0 22),
  ([O,O,O,O,O,O,O,O,O,I,I,O,O,O], .coef 0 23),
  ([O,O,O,O,O,O,O,O,O,I,O,I,I,I], .coef 0 24),
  ([O,O,O,O,O,O,O,O,O,I,O,I,I,O], .coef 0 25),
  ([O,O,O,O,O,O,O,O,O,I,O,I,O,I], .coef 0 26),
  ([O,O,O,O,O,O,O,O,O,I,O,I,O,O], .coef 0 27),
  ([O,O,O,O,O,O,O,O,O,I,O,O,I,I], .coef 0 28),
  ([O,O,O,O,O,O,O,O,O,I,O,O,I,O], .coef 0 29),
  ([O,O,O,O,O,O,O,O,O,I,O,O,O,I], .coef 0 30),
  ([O,O,O,O,O,O,O,O,O,I,O,O,O,O], .coef 0 31),
  ([O,O,O,O,O,O,O,O,O,O,I,I,O,O,O], .coef 0 32),
  ([O,O,O,O,O,O,O,O,O,O,I,O,I,I,I], .coef 0 33),
  ([O,O,O,O,O,O,O,O,O,O,I,O,I,I,O], .coef 0 34),
  ([O,O,O,O,O,O,O,O,O,O,I,O,I,O,I], .coef 0 35),
  ([O,O,O,O,O,O,O,O,O,O,I,O,I,O,O], .coef 0 36),
  ([O,O,O,O,O,O,O,O,O,O,I,O,O,I,I], .coef 0 37),
  ([O,O,O,O,O,O,O,O,O,O,I,O,O,I,O], .coef 0 38),
  ([O,O,O,O,O,O,O,O,O,O,I,O,O,O,I], .coef 0 39),
  ([O,O,O,O,O,O,O,O,O,O,I,O,O,O,O], .coef 0 40),
  ([O,O,O,O,O,O,O,O,O,O,I,I,I,I,I], .coef 1 8),
  ([O,O,O,O,O,O,O,O,O,O,I,I,I,I,O], .coef 1 9),
  ([O,O,O,O,O,O,O,O,O,O,I,I,I,O,I], .coef 1 10),
  ([O,O,O,O,O,O,O,O,O,O,I,I,I,O,O], .coef 1 11),
  ([O,O,O,O,O,O,O,O,O,O,I,I,O,I,I], .coef 1 12),
  ([O,O,O,O,O,O,O,O,O,O,I,I,O,I,O], .coef 1 13),
  ([O,O,O,O,O,O,O,O,O,O,I,I,O,O,I], .coef 1 14),
  ([O,O,O,O,O,O,O,O,O,O,O,I,O,O,I,I], .coef 1 15),
  ([O,O,O,O,O,O,O,O,O,O,O,I,O,O,I,O], .coef 1 16),
  ([O,O,O,O,O,O,O,O,O,O,O,I,O,O,O,I], .coef 1 17),
  ([O,O,O,O,O,O,O,O,O,O,O,I,O,O,O,O], .coef 1 18),
  ([O,O,O,O,O,O,O,O,O,O,O,I,O,I,O,O], .coef 6 3),
  ([O,O,O,O,O,O,O,O,O,O,O,I,I,O,I,O], .coef 11 2),
  ([O,O,O,O,O,O,O,O,O,O,O,I,I,O,O,I], .coef 12 2),
  ([O,O,O,O,O,O,O,O,O,O,O,I,I,O,O,O], .coef 13 2),
  ([O,O,O,O,O,O,O,O,O,O,O,I,O,I,I,I], .coef 14 2),
  ([O,O,O,O,O,O,O,O,O,O,O,I,O,I,I,O], .coef 15 2),
  ([O,O,O,O,O,O,O,O,O,O,O,I,O,I,O,I], .coef 16 2),
  ([O,O,O,O,O,O,O,O,O,O,O,I,I,I,I,I], .coef 27 1),
  ([O,O,O,O,O,O,O,O,O,O,O,I,I,I,I,O], .coef 28 1),
  ([O,O,O,O,O,O,O,O,O,O,O,I,I,I,O,I], .coef 29 1),
  ([O,O,O,O,O,O,O,O,O,O,O,I,I,I,O,O], .coef 30 1),
  ([O,O,O,O,O,O,O,O,O,O,O,I,I,O,I,I], .coef 31 1)]

end Mpeg.Video
