set -e
# Builds /tmp/vdiff/runner: the video model of lean/Verif compiled natively, with the
# function-valued blocks and planes memoised in arrays (lemmas `look_mem`, `lookN_memN`).
SRC=$(cd "$(dirname "$0")/../lean" && pwd)
mkdir -p /tmp/vdiff/Verif/Base /tmp/vdiff/Verif/Video
cd /tmp/vdiff
MODS="Base/Go Base/Bits Base/BR Base/StartCode Video/HeaderModel Video/VlcTables Video/VlcModel Video/BlockModel Video/FrameModel Video/MacroblockModel"
for f in $MODS; do cp $SRC/Verif/$f.lean Verif/$f.lean; done
python3 - <<'PY'
p='Verif/Video/BlockModel.lean'; s=open(p).read()
s=s.replace("""/-- `dcDctPredictors`""","""def look (a : Array Int) (i : Nat) : Int := a.getD i 0
@[noinline] def mem (b : Block) : Array Int := Array.ofFn (n := 64) fun i => b i.1
theorem look_mem (b : Block) (i : Nat) (h : i < 64) : look (mem b) i = b i := by
  simp [look, mem, Array.getD, h]
def lookN (a : Array Nat) (i : Nat) : Nat := a.getD i 0
@[noinline] def memN (n : Nat) (b : Nat → Nat) : Array Nat := Array.ofFn (n := n) fun i => b i.1
theorem lookN_memN (n : Nat) (b : Nat → Nat) (i : Nat) (h : i < n) : lookN (memN n b) i = b i := by
  simp [lookN, memN, Array.getD, h]

/-- `dcDctPredictors`""",1)
open(p,'w').write(s)
p='Verif/Video/FrameModel.lean'; s=open(p).read()
o="data := fun i => if off ≤ i ∧ i < off + n then src (i - off) else p.data i"
assert o in s
s=s.replace(o,"data := lookN (memN p.len fun i => if off ≤ i ∧ i < off + n then src (i - off) else p.data i)",1)
open(p,'w').write(s)
p='Verif/Video/MacroblockModel.lean'; s=open(p).read()
o="(.ok (idct (decodeBlock (blockParams e s.qsc i intra) c.1)), { s with br := br', dcp := c.2 })"
assert o in s
s=s.replace(o,"""
      let q := blockParams e s.qsc i intra
      let a0 := mem c.1
      let a1 := mem fun i => saturate (dequant q (look a0 (scanAt q.alternateScan i)) i)
      let a2 := mem (mismatch (look a1))
      let a3 := mem (idctRows (look a2))
      let a4 := mem (idctCols (look a3))
      (.ok (look a4), { s with br := br', dcp := c.2 })""",1)
o="updateFrame i addr row interlaced f c.clamp"
assert o in s
s=s.replace(o,"updateFrame i addr row interlaced f (lookN (memN 64 c.clamp))",1)
open(p,'w').write(s)
PY
LP=/tmp/vdiff/out; mkdir -p out/Verif/Base out/Verif/Video c
for f in $MODS; do
  LEAN_PATH=$LP lean -o out/Verif/$f.olean -i out/Verif/$f.ilean -c c/$(echo $f | tr / _).c Verif/$f.lean
done
cat > Main.lean <<'LEAN'
import Verif.Video.MacroblockModel
open Mpeg Mpeg.Video

def hexd (n : Nat) : Char := "0123456789abcdef".toList.getD n '?'
def hexp (p : Plane) : String := Id.run do
  let mut s := ""
  for i in [0:p.len] do
    let v := p.data i
    s := (s.push (hexd (v / 16))).push (hexd (v % 16))
  return s
def errName : Err → String
  | .eof => "eof" | .unexpectedEOF => "ueof" | .unexpectedStartCode => "usc" | .unexpectedExtensionID => "uext"
  | .unexpectedNonZeroByte => "nonzero" | .missingMarkerBit => "marker" | .invalidReservedBits => "rsv"
  | .missingHuffmanValue => "huff" | .eos => "eos" | .unsupported11172 => "mpeg1" | _ => "other"

partial def go (n total : Nat) (s : VS) : IO Unit := do
  let fin (s : VS) : IO Unit := IO.println s!"pos {min s.br.pos total} fc {s.frameCounter}"
  if n = 0 then fin s else
  match VS.next (total + 10) (total + 10) s with
  | (.ok f, s') =>
    IO.println s!"F {f.yStride} {f.cStride} {hexp f.y} {hexp f.cb} {hexp f.cr}"
    go (n - 1) total s'
  | (.err e, s') => IO.println s!"E {errName e}"; fin s'
  | (.panic, s') => IO.println "P"; fin s'
  | (.hang, s') => IO.println "H"; fin s'

partial def main : IO Unit := do
  let stdin ← IO.getStdin
  let rec loop : IO Unit := do
    let l ← stdin.getLine
    if l.isEmpty then return ()
    let bits := l.toList.filterMap fun c => if c = '1' then some true else if c = '0' then some false else none
    go 40 bits.length (VS.new (BR.ofBits bits))
    IO.println "END"
    (← IO.getStdout).flush
    loop
  loop
LEAN
LEAN_PATH=$LP lean -c c/Main.c Main.lean
leanc -O2 -o runner c/*.c
