set -e
# Builds /tmp/sdiff/runner: the transport, packetised and program stream models of
# lean/Verif compiled natively, unchanged.
SRC=$(cd "$(dirname "$0")/../lean" && pwd)
mkdir -p /tmp/sdiff
cd /tmp/sdiff
rm -rf Verif c out; mkdir -p c
MODS="Base/Go Base/Bits Base/BR Base/StartCode TS/Model TS/ReaderModel PES/Model PS/Model"
for f in $MODS; do mkdir -p $(dirname Verif/$f) $(dirname out/Verif/$f); cp $SRC/Verif/$f.lean Verif/$f.lean; done
LP=/tmp/sdiff/out
for f in $MODS; do
  LEAN_PATH=$LP lean -o out/Verif/$f.olean -i out/Verif/$f.ilean -c c/$(echo $f | tr / _).c Verif/$f.lean
done
cat > Main.lean <<'LEAN'
import Verif.TS.ReaderModel
import Verif.PES.Model
import Verif.PS.Model
open Mpeg

def hexd (n : Nat) : Char := "0123456789abcdef".toList.getD n '?'
def hexb (l : List UInt8) : String :=
  String.ofList (l.flatMap fun b => [hexd (b.toNat / 16), hexd (b.toNat % 16)])
def errName : Err → String
  | .eof => "eof" | .unexpectedEOF => "ueof" | .eop => "eop" | .noSyncByte => "nosync"
  | .startCodePrefixNotFound => "prefix" | .markerNotFound => "marker" | .invalidStuffingByte => "stuff"
  | .unexpectedStartCode => "usc" | _ => "other"
def errO : Option Err → String
  | none => "-" | some e => errName e
class Sh (α : Type) where sh : α → String
instance : Sh Bool := ⟨fun b => if b then "1" else "0"⟩
instance : Sh Nat := ⟨toString⟩
instance : Sh (List UInt8) := ⟨fun l => "x" ++ hexb l⟩
instance {α : Type} [Sh α] : Sh (Option α) := ⟨fun | none => "-" | some a => Sh.sh a⟩
export Sh (sh)
def rec (n : String) (l : List String) : String := n ++ "(" ++ String.intercalate " " l ++ ")"
instance : Sh TS.TransportPrivateData := ⟨fun t => rec "TPD" [sh t.length, sh t.data]⟩
instance : Sh TS.AdaptationExt := ⟨fun a => rec "AExt" [sh a.legalTimeWindowFlag, sh a.piecewiseRateFlag,
  sh a.seamlessSpliceFlag, sh a.ltwValidFlag, sh a.ltwOffset, sh a.piecewiseRate, sh a.spliceType, sh a.dtsNextAU,
  sh a.length]⟩
instance : Sh TS.AdaptationField := ⟨fun a => rec "AF" [sh a.discontinuityIndicator, sh a.randomAccessIndicator,
  sh a.elementaryStreamPriorityIndicator, sh a.pcrFlag, sh a.opcrFlag, sh a.splicingPointFlag,
  sh a.transportPrivateDataFlag, sh a.adaptationFieldExtensionFlag, sh a.pcr, sh a.opcr, sh a.spliceCountdown,
  sh a.transportPrivateData, sh a.adaptationExtension, sh a.length, sh a.junk]⟩
instance : Sh TS.Packet := ⟨fun p => rec "TSPacket" [sh p.transportErrorIndicator, sh p.payloadUnitStartIndicator,
  sh p.transportPriority, sh p.pid, sh p.transportScramblingControl, sh p.adaptationFieldControl,
  sh p.continuityCounter, sh p.adaptationField, sh p.payload]⟩
instance : Sh PES.PStdBuffer := ⟨fun b => rec "PStd" [sh b.scale, sh b.size]⟩
instance : Sh PES.Extension := ⟨fun e => rec "Ext" [sh e.privateDataFlag, sh e.packHeaderFieldFlag,
  sh e.programPacketSequenceCounterFlag, sh e.pStdBufferFlag, sh e.extensionFlag2, sh e.privateData, sh e.pStdBuffer]⟩
instance : Sh PES.Header := ⟨fun h => rec "Hdr" [sh h.scramblingControl, sh h.priority, sh h.dataAlignmentIndicator,
  sh h.copyright, sh h.originalOrCopy, sh h.ptsDtsFlags, sh h.escrFlag, sh h.esRateFlag, sh h.dsmTrickModeFlag,
  sh h.additionalCopyInfoFlag, sh h.crcFlag, sh h.extensionFlag, sh h.headerDataLength, sh h.presentationTimeStamp,
  sh h.decodingTimeStamp, sh h.extension]⟩
instance : Sh PES.Packet := ⟨fun p => rec "PESPacket" [sh p.streamID, sh p.packetLength, sh p.header, sh p.payload]⟩
instance : Sh PS.Stream := ⟨fun t => rec "Strm" [sh t.streamID, sh t.boundScale, sh t.sizeBound]⟩
instance : Sh (List PS.Stream) := ⟨fun l => if l.isEmpty then "x" else "[" ++ String.intercalate "," (l.map sh) ++ "]"⟩
instance : Sh PS.SystemHeader := ⟨fun h => rec "Sys" [sh h.headerLength, sh h.rateBound, sh h.audioBound, sh h.fixed,
  sh h.csps, sh h.audioLock, sh h.videoLock, sh h.videoBound, sh h.packetRateRestriction, sh h.streams]⟩
instance : Sh PS.PackHeader := ⟨fun h => rec "Pack" [sh h.scrBase, sh h.scrExtension, sh h.muxRate, sh h.system]⟩

def tester (s : String) : Option TS.Tester :=
  let a := s.splitOn " "
  let n := ((a.getD 1 "").toNat?).getD 0
  match a.getD 0 "" with
  | "t" => some TS.alwaysTrue
  | "p" => some (TS.isPID n)
  | "n" => some (TS.isPID n).not
  | "u" => some ((TS.isPID n).and TS.isPayloadUnitStart)
  | "v" => some ((TS.isPID n).and TS.isPayloadUnitStart).not
  | _ => none

def outc {σ α : Type} (k : σ → IO Unit) (r : Res α × σ) (f : Option α → Option Err → σ → String) : IO Unit :=
  match r with
  | (.ok a, s) => do IO.println (f (some a) none s); k s
  | (.err e, s) => do IO.println (f none (some e) s); k s
  | (.panic, _) => IO.println "P"
  | (.hang, _) => IO.println "H"

partial def loopT {σ : Type} (sizes : List Nat) (one : Nat → σ → Res String × σ) (s : σ) : IO Unit :=
  match sizes with
  | [] => pure ()
  | n :: l => match one n s with
    | (.ok a, s') => do IO.println a; loopT l one s'
    | (.err _, s') => do IO.println "?"; loopT l one s'
    | (.panic, _) => IO.println "P"
    | (.hang, _) => IO.println "H"

def flat {σ α : Type} (f : Option α → Option Err → σ → String) (r : Res α × σ) : Res String × σ :=
  match r with
  | (.ok a, s) => (.ok (f (some a) none s), s)
  | (.err e, s) => (.ok (f none (some e) s), s)
  | (.panic, s) => (.panic, s)
  | (.hang, s) => (.hang, s)

def goRun (mode spec : String) (sizes : List Nat) (br : BR) (total : Nat) : IO Unit :=
  let fuel := total + 400
  let rd {σ : Type} (pos : σ → Nat) (rem : σ → Nat) (a : Option (List UInt8 × Option Err)) (s : σ) : String :=
    match a with
    | some (o, e) => s!"{hexb o} {errO e} {pos s} {rem s}"
    | none => "?"
  match mode with
  | "T" => loopT sizes (fun _ s => flat (fun _ e s => s!"{sh s.pkt} {errO e} {s.br.pos}") (TS.Packet.next s)) ⟨TS.Packet.new, br⟩
  | "R" =>
    let a := spec.splitOn ","
    let c : TS.PRCfg := { whre := (tester (a.getD 0 "")).getD TS.alwaysTrue, skipUntil := tester (a.getD 1 ""),
                          takeWhile := (tester (a.getD 2 "")).getD TS.alwaysTrue }
    loopT sizes (fun n s => flat (fun o _ s => rd (·.st.br.pos) (·.remainder.length) o s) (TS.PR.read c fuel n s)) (TS.PR.new br)
  | "U" =>
    let w := (tester spec).getD TS.alwaysTrue
    loopT sizes (fun n s => flat (fun o _ s => rd (·.st.br.pos) (·.buffer.length) o s) (TS.PU.read w fuel n s)) (TS.PU.new br)
  | "E" => loopT sizes (fun _ s => flat (fun _ e s => s!"{sh s.pkt} {errO e} {s.br.pos}") (PES.Packet.next s)) ⟨{}, br⟩
  | "Q" => loopT sizes (fun n s => flat (fun o _ s => rd (·.st.br.pos) (·.remainder.length) o s) (PES.PR.read fuel n s)) (PES.PR.new br)
  | "H" => loopT sizes (fun _ s => flat (fun h e s => s!"{sh h} {errO e} {s.pos}") (PS.newPackHeader s)) br
  | "K" => loopT sizes (fun n s => flat (fun o _ s => match o with
      | some r => s!"{hexb r.stored} {r.count} {errO r.err} {s.br.pos} {s.remainder.length}"
      | none => "?") (PS.PackReader.read n s)) (PS.PackReader.new br)
  | _ => pure ()

partial def main : IO Unit := do
  let stdin ← IO.getStdin
  let rec loop : IO Unit := do
    let l ← stdin.getLine
    if l.isEmpty then return ()
    let a := ((l.dropEndWhile (· == '\n')).toString).splitOn "|"
    let sizes := ((a.getD 2 "").splitOn " ").filterMap (·.toNat?)
    let segs : List (List Bool × Err) := ((a.getD 3 "").splitOn ";").map fun t =>
      (t.toList.filterMap fun c => if c = '1' then some true else if c = '0' then some false else none,
       if t.toList.getLast? = some 'e' then Err.eof else .eop)
    let h := segs.headD ([], .eof)
    let br : BR := { bits := h.1, pos := 0, stop := h.2, later := segs.tail }
    goRun (a.getD 0 "") (a.getD 1 "") sizes br (segs.map (·.1.length)).sum
    IO.println "END"
    (← IO.getStdout).flush
    loop
  loop
LEAN
LEAN_PATH=$LP lean -c c/Main.c Main.lean
leanc -O2 -o runner c/*.c
