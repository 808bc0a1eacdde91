/-
Model of block decoding: coefficients, inverse scan, inverse quantisation, inverse DCT, clamping.
-/
import Verif.Video.VlcModel
namespace Mpeg.Video

/-- `int32` arithmetic wraps. -/
def i32 (x : Int) : Int := Int.bmod x (2 ^ 32)

/-- `block` (video/block.go:10): an array of 64 `int32`; only the indices below 64 are meaningful. -/
abbrev Block := Nat → Int

/-- `dcDctPredictors` (video/dc_dct_predictors.go:3) -/
structure DcPred where
  y : Int
  cb : Int
  cr : Int
deriving DecidableEq, Repr

def DcPred.get (p : DcPred) (cc : Nat) : Int := if cc = 0 then p.y else if cc = 1 then p.cb else p.cr
def DcPred.set (p : DcPred) (cc : Nat) (v : Int) : DcPred :=
  if cc = 0 then { p with y := v } else if cc = 1 then { p with cb := v } else { p with cr := v }

/-- `createResetter` (video/dc_dct_predictors.go:6-13) -/
def DcPred.reset (intraDCPrecision : Nat) : DcPred :=
  let v : Int := 2 ^ (7 + intraDCPrecision)
  ⟨v, v, v⟩

/-- `block.zero` (video/block.go:20-24) -/
def Block.zero : Block := fun _ => 0

/-- The DC differential (video/block.go:61-71) for a size and the bits read. -/
def dcDiff (size v : Nat) : Int :=
  if size = 0 then 0
  else if 2 ^ (size - 1) ≤ v then (v : Int)
  else (v : Int) + 1 - 2 * 2 ^ (size - 1)

/-- The DC part of `block.read` (video/block.go:42-76): the new DC value. -/
def readDC (cc : Nat) (pred : Int) : Go BR Int := do
  let size ← dcSize cc
  let v ← BR.read size
  pure (i32 (pred + dcDiff size v))

/-- The inner loops of `block.read` for one event (video/block.go:97-102): zeros, then the level. -/
def Block.put (b : Block) (n run : Nat) (level : Int) : Block := fun i =>
  if n ≤ i ∧ i < n + run then 0 else if i = n + run then level else b i

/-- The end of block case (video/block.go:91-95). -/
def Block.fill (b : Block) (n : Nat) : Block := fun i => if n ≤ i then 0 else b i

/-- The loop of `block.read` (video/block.go:78-104).  An index of 64 or more panics: `QFS` has 64 elements.
Each round increases `n`, so fuel 65 is never used up. -/
def coeffLoop (one : Bool) : Nat → Nat → Block → Go BR Block
  | 0, _, _ => Go.hang
  | fuel + 1, n, b => do
    let ev ← dctCoefficient one n
    match ev with
    | .eob => pure (b.fill n)
    | .coef run level =>
      if n + run < 64 then coeffLoop one fuel (n + run + 1) (b.put n run level) else Go.panic

/-- `block.read` (video/block.go:38-108): the coefficients and the predictors.  On an error the partly written
block and predictors are dropped: all callers give up the picture. -/
def readBlock (b : Block) (p : DcPred) (intraVLCFormat cc : Nat) (intra : Bool) : Go BR (Block × DcPred) :=
  if intra then do
    let dc ← readDC cc (p.get cc)
    let c ← coeffLoop (intraVLCFormat == 1) 65 1 (fun i => if i = 0 then dc else b i)
    pure (c, p.set cc dc)
  else do
    let c ← coeffLoop false 65 0 b
    pure (c, p)

/-! ### inverse scan and quantisation -/

/-- `scan[0]` (video/decode_block.go:4-13), row by row -/
def scanZigzag : List Nat :=
  [0, 1, 5, 6, 14, 15, 27, 28,
   2, 4, 7, 13, 16, 26, 29, 42,
   3, 8, 12, 17, 25, 30, 41, 43,
   9, 11, 18, 24, 31, 40, 44, 53,
   10, 19, 23, 32, 39, 45, 52, 54,
   20, 22, 33, 38, 46, 51, 55, 60,
   21, 34, 37, 47, 50, 56, 59, 61,
   35, 36, 48, 49, 57, 58, 62, 63]
/-- `scan[1]` (video/decode_block.go:14-23) -/
def scanAlternate : List Nat :=
  [0, 4, 6, 20, 22, 36, 38, 52,
   1, 5, 7, 21, 23, 37, 39, 53,
   2, 8, 19, 24, 34, 40, 50, 54,
   3, 9, 18, 25, 35, 41, 51, 55,
   10, 17, 26, 30, 42, 46, 56, 60,
   11, 16, 27, 31, 43, 47, 57, 61,
   12, 15, 28, 32, 44, 48, 58, 62,
   13, 14, 29, 33, 45, 49, 59, 63]

/-- `scan[alternate_scan][v][u]` with `i = 8 * v + u`; `alternate_scan` is one bit. -/
def scanAt (alternateScan i : Nat) : Nat :=
  (if alternateScan = 0 then scanZigzag else scanAlternate).getD i 0

/-- `quantiser_scale_tables` (video/quantiser_scale_table.go:5-18) -/
def quantiserScale (qScaleType code : Nat) : Int :=
  (if qScaleType = 0 then
    ([0, 2, 4, 6, 8, 10, 12, 14, 16, 18, 20, 22, 24, 26, 28, 30, 32, 34, 36, 38, 40, 42, 44, 46, 48, 50, 52, 54, 56,
      58, 60, 62] : List Int)
   else
    [0, 1, 2, 3, 4, 5, 6, 7, 8, 10, 12, 14, 16, 18, 20, 22, 24, 28, 32, 36, 40, 44, 48, 52, 56, 64, 72, 80, 88, 96,
     104, 112]).getD code 0

/-- `signInt32` (video/decode_block.go:26-33) -/
def sign32 (i : Int) : Int := if 0 < i then 1 else if i < 0 then -1 else 0

/-- The parameters of `decode_block` taken from the `VideoSequence` and its arguments. -/
structure QParams where
  alternateScan : Nat
  qScaleType : Nat
  intraDCPrecision : Nat
  chromaFormat : Nat
  qm : QMatrices
  cc : Nat
  qsc : Nat
  intra : Bool

/-- `W[w]` (video/decode_block.go:67-90) -/
def QParams.matrix (q : QParams) : Matrix :=
  if q.cc = 0 ∨ q.chromaFormat = 1 then (if q.intra then q.qm.m0 else q.qm.m1)
  else (if q.intra then q.qm.m2 else q.qm.m3)

/-- `Fpp[v][u]` with `i = 8 * v + u` (video/decode_block.go:92-107); Go's `/` truncates.  The `int32` products are
wrapped once, before the division: wrapping the partial products as well gives the same number. -/
def dequant (q : QParams) (qf : Int) (i : Nat) : Int :=
  let qs := quantiserScale q.qScaleType q.qsc
  let w : Int := (q.matrix.getD i 0 : Nat)
  if i = 0 ∧ q.intra = true then i32 (2 ^ (3 - q.intraDCPrecision) * qf)
  else if q.intra then Int.tdiv (i32 (qf * w * qs * 2)) 32
  else Int.tdiv (i32 ((qf * 2 + sign32 qf) * w * qs)) 32

/-- Saturation (video/decode_block.go:115-121) -/
def saturate (x : Int) : Int := if 2047 < x then 2047 else if x < -2048 then -2048 else x

/-- The sum over the 64 positions (video/decode_block.go:122); it stays far below `2 ^ 31`. -/
def blockSum (b : Block) : Int := ((List.range 64).map b).sum

/-- Mismatch control (video/decode_block.go:127-134) -/
def mismatch (f : Block) : Block :=
  if blockSum f % 2 = 0 then
    fun i => if i = 63 then (if f 63 % 2 ≠ 0 then f 63 - 1 else f 63 + 1) else f i
  else f

/-- `decode_block` (video/decode_block.go:35-136) -/
def decodeBlock (q : QParams) (qfs : Block) : Block :=
  mismatch fun i => saturate (dequant q (qfs (scanAt q.alternateScan i)) i)

/-! ### inverse DCT -/

/-- One row of the horizontal pass (video/idct.go:70-133) on `src[y8..y8+7]`.  `int32` results are wrapped at every
assignment and before every shift; `>> k` is the floor division by `2 ^ k`. -/
def idctRow (s : Nat → Int) : Nat → Int :=
  if s 1 = 0 ∧ s 2 = 0 ∧ s 3 = 0 ∧ s 4 = 0 ∧ s 5 = 0 ∧ s 6 = 0 ∧ s 7 = 0 then
    fun _ => i32 (s 0 * 8)
  else
    let x0 := i32 (s 0 * 2048 + 128)
    let x1 := i32 (s 4 * 2048)
    let x2 := s 6
    let x3 := s 2
    let x4 := s 1
    let x5 := s 7
    let x6 := s 5
    let x7 := s 3
    -- stage 1
    let a8 := i32 (565 * (x4 + x5))
    let a4 := i32 (a8 + 2276 * x4)
    let a5 := i32 (a8 - 3406 * x5)
    let b8 := i32 (2408 * (x6 + x7))
    let a6 := i32 (b8 - 799 * x6)
    let a7 := i32 (b8 - 4017 * x7)
    -- stage 2
    let c8 := i32 (x0 + x1)
    let c0 := i32 (x0 - x1)
    let c1 := i32 (1108 * (x3 + x2))
    let c2 := i32 (c1 - 3784 * x2)
    let c3 := i32 (c1 + 1568 * x3)
    let d1 := i32 (a4 + a6)
    let d4 := i32 (a4 - a6)
    let d6 := i32 (a5 + a7)
    let d5 := i32 (a5 - a7)
    -- stage 3
    let e7 := i32 (c8 + c3)
    let e8 := i32 (c8 - c3)
    let e3 := i32 (c0 + c2)
    let e0 := i32 (c0 - c2)
    let e2 := i32 (181 * (d4 + d5) + 128) / 256
    let e4 := i32 (181 * (d4 - d5) + 128) / 256
    -- stage 4
    fun i =>
      if i = 0 then i32 (e7 + d1) / 256
      else if i = 1 then i32 (e3 + e2) / 256
      else if i = 2 then i32 (e0 + e4) / 256
      else if i = 3 then i32 (e8 + d6) / 256
      else if i = 4 then i32 (e8 - d6) / 256
      else if i = 5 then i32 (e0 - e4) / 256
      else if i = 6 then i32 (e3 - e2) / 256
      else i32 (e7 - d1) / 256

/-- One column of the vertical pass (video/idct.go:136-187) on `src[8*k+x]`, `k < 8`. -/
def idctCol (s : Nat → Int) : Nat → Int :=
  let y0 := i32 (s 0 * 256 + 8192)
  let y1 := i32 (s 4 * 256)
  let y2 := s 6
  let y3 := s 2
  let y4 := s 1
  let y5 := s 7
  let y6 := s 5
  let y7 := s 3
  -- stage 1
  let a8 := i32 (565 * (y4 + y5) + 4)
  let a4 := i32 (a8 + 2276 * y4) / 8
  let a5 := i32 (a8 - 3406 * y5) / 8
  let b8 := i32 (2408 * (y6 + y7) + 4)
  let a6 := i32 (b8 - 799 * y6) / 8
  let a7 := i32 (b8 - 4017 * y7) / 8
  -- stage 2
  let c8 := i32 (y0 + y1)
  let c0 := i32 (y0 - y1)
  let c1 := i32 (1108 * (y3 + y2) + 4)
  let c2 := i32 (c1 - 3784 * y2) / 8
  let c3 := i32 (c1 + 1568 * y3) / 8
  let d1 := i32 (a4 + a6)
  let d4 := i32 (a4 - a6)
  let d6 := i32 (a5 + a7)
  let d5 := i32 (a5 - a7)
  -- stage 3
  let e7 := i32 (c8 + c3)
  let e8 := i32 (c8 - c3)
  let e3 := i32 (c0 + c2)
  let e0 := i32 (c0 - c2)
  let e2 := i32 (181 * (d4 + d5) + 128) / 256
  let e4 := i32 (181 * (d4 - d5) + 128) / 256
  -- stage 4
  fun i =>
    if i = 0 then i32 (e7 + d1) / 16384
    else if i = 1 then i32 (e3 + e2) / 16384
    else if i = 2 then i32 (e0 + e4) / 16384
    else if i = 3 then i32 (e8 + d6) / 16384
    else if i = 4 then i32 (e8 - d6) / 16384
    else if i = 5 then i32 (e0 - e4) / 16384
    else if i = 6 then i32 (e3 - e2) / 16384
    else i32 (e7 - d1) / 16384

/-- The horizontal pass (video/idct.go:69-133): row `y` is rewritten from its own eight elements. -/
def idctRows (b : Block) : Block := fun i => idctRow (fun u => b (8 * (i / 8) + u)) (i % 8)

/-- The vertical pass (video/idct.go:135-187): column `x` is rewritten from its own eight elements. -/
def idctCols (b : Block) : Block := fun i => idctCol (fun v => b (8 * v + i % 8)) (i / 8)

/-- `block.idct` (video/idct.go:68-188) -/
def idct (b : Block) : Block := idctCols (idctRows b)

/-- `block.clamp` for one element (video/block.go:28-34) -/
def clamp8 (x : Int) : Nat := if 255 < x then 255 else if x < 0 then 0 else x.toNat

/-- `block.clamp` (video/block.go:26-36) -/
def Block.clamp (b : Block) : Nat → Nat := fun i => clamp8 (b i)

end Mpeg.Video
