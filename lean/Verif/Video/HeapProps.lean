/-
C84: the pictures that `Next` returns are shared with the decoder.
-/
import Verif.Video.HeapLemmas2
import Verif.Video.ShapeProps
set_option linter.all false
namespace Mpeg.Video
open Spec

/-- **C84** Pictures that `Next` has returned are never changed by later calls: whatever the input and however many calls
are made, looking at all the returned pictures at the end shows what the decoder of MacroblockModel.lean, in which frames
are values, returns from call to call. -/
theorem C84 (fuel k n : Nat) (br : BR) :
    (pointers fuel k n (HVS.new br)).1.map (look (pointers fuel k n (HVS.new br)).2.mem) = outcomes fuel k n (VS.new br) :=
  (pointers_outcomes fuel k n (HVS.new br) (inv_new br)).1

/-- **C84** from any state of a decoder in use, also if the caller has written into pictures. -/
theorem C84_used (fuel k n : Nat) {h : HVS} (hu : HUsed h) :
    (pointers fuel k n h).1.map (look (pointers fuel k n h).2.mem) = outcomes fuel k n h.toVS ∧
    ∀ a < h.free, (pointers fuel k n h).2.mem a = h.mem a :=
  ⟨(pointers_outcomes fuel k n h (used_inv hu)).1, (pointers_outcomes fuel k n h (used_inv hu)).2.2⟩

/-- **C84** A caller may write into a picture that the decoder does not hold any more: nothing that later calls return
changes. -/
theorem C84_draw (fuel k n : Nat) {h : HVS} (hu : HUsed h) {a : Nat} (ha : a < h.free) (hn : ¬ Held h a) (f : Frame) :
    (pointers fuel k n (draw h a f)).1.map (look (pointers fuel k n (draw h a f)).2.mem) = outcomes fuel k n h.toVS := by
  rw [(C84_used fuel k n (.draw a f hu ha)).1, toVS_draw f hn]

/-- **C84** A picture that is read by the call and is neither intra nor predicted is not held: the caller may write into it
at once. -/
theorem C84_b {fuel k : Nat} {h h' : HVS} {a : Nat} (hu : HUsed h) (hx : HVS.next fuel k h = (.ok a, h')) (hb : h'.br ≠ h.br)
    {ph : PictureHeader} (hph : h'.ph = some ph) (hI : ph.pictureCodingType ≠ 1) (hP : ph.pictureCodingType ≠ 2) :
    a < h'.free ∧ ¬ Held h' a := by
  constructor
  · rcases simv_next_cases (fuel := fuel) (k := k) (used_inv hu) with ⟨a', h1, e, _, h2, _⟩ | ⟨e, h1, e', _⟩ | ⟨h1, e, _⟩ | ⟨h1, e, _⟩
    · rw [e] at hx; cases hx; exact h2
    all_goals (simp_all)
  · unfold HVS.next at hx
    split at hx
    · cases hx; exact absurd rfl hb
    · exact post_nextLoop fuel k h a h' (used_inv hu) hx ph hph hI hP

/-! ### concrete cases -/

namespace ExStream

/-- an intra picture and a predicted picture that copies it, each of one macroblock -/
def copied : List Bool :=
  byte (encSeq (seqH 16)) ++ (byte (encSeqExt (seqE 1)) ++ (byte (encGOP gopH) ++ (byte (encPic ⟨0, .other 1, 0, []⟩) ++
    (byte (encPicExt picE) ++ (byte ((sl 0 mbI).head (envI 16 1) ++ (codeI 16 1 0 ⟨none, none⟩ blank).bits) ++
    (byte (encPic ⟨1, .p 0 7, 0, []⟩) ++ (byte (encPicExt picE) ++
    (byte ((sl 0 mbP).head ((cx 16 1).env picP) ++ [true, false, false, true, true, true]) ++ bitsOf 32 0x1B7))))))))

/-- the addresses of the pictures that two calls return, and their first samples after the two calls; before the second
call the caller does `f` -/
def twice (f : HVS → HVS) (s : List Bool) : List (Nat × Nat) :=
  match HVS.next 2000 4 (HVS.new (.ofBits s)) with
  | (.ok a, h) =>
    match HVS.next 2000 4 (f h) with
    | (.ok b, h') => [(a, (h'.mem a).y.data 0), (b, (h'.mem b).y.data 0)]
    | _ => []
  | _ => []

/-- an intra picture, a predicted picture for temporal reference 2, and a bidirectional picture for temporal reference 1 -/
def between : List Bool :=
  byte (encSeq (seqH 16)) ++ (byte (encSeqExt (seqE 1)) ++ (byte (encGOP gopH) ++ (byte (encPic ⟨0, .other 1, 0, []⟩) ++
    (byte (encPicExt picE) ++ (byte ((sl 0 mbI).head (envI 16 1) ++ (codeI 16 1 0 ⟨none, none⟩ blank).bits) ++
    (byte (encPic ⟨2, .p 0 7, 0, []⟩) ++ (byte (encPicExt picE) ++
    (byte ((sl 0 mbP).head ((cx 16 1).env picP) ++ [true, false, false, true, true, true]) ++
    (byte (encPic ⟨1, .b 0 7 0 7, 0, []⟩) ++ (byte (encPicExt picE) ++
    (byte ((sl 0 mbB).head ((cx 16 1).env picB) ++ (codeB ⟨none, none⟩ blank).bits) ++ bitsOf 32 0x1B7)))))))))))

/-- the addresses that the calls return, and those held at the end -/
def addresses (n : Nat) (s : List Bool) : List (Option Nat) × List (Option Nat) :=
  match pointers 2000 4 n (HVS.new (.ofBits s)) with
  | (l, h) => (l.map fun | .ok a => some a | _ => none, [h.fs.f0.map (·.frame), h.fs.f1.map (·.frame), h.fs.past, h.fs.future])

end ExStream
open ExStream

/-- the bidirectional picture is allocated last and returned second; it is not held -/
example : addresses 3 between = ([some 0, some 2, some 1], [some 0, some 1, some 0, some 1]) := by decide +kernel

example : twice id copied = [(0, 133), (1, 133)] := by decide +kernel

/-- **C84** (the full claim, false) The pictures that `Next` returns are not the caller's own: writing into an intra or
predicted picture changes later pictures.  Here the caller clears the first picture before the second call, and the second
picture is cleared as well. -/
theorem C84_aliasing : twice id copied = [(0, 133), (1, 133)] ∧
    twice (fun h => draw h 0 (createFrameBuffer 16 16 1)) copied = [(0, 0), (1, 0)] := by
  constructor <;> decide +kernel

end Mpeg.Video
