/-
C139: fields for display, buffering and time codes do not influence decoding.
-/
import Verif.Video.DisplayLemmas3
import Verif.Video.DriftProps
namespace Mpeg.Video
open Spec

theorem blind_alignToLoop (c : Nat) : ∀ f, Blind1 (alignToLoop c f)
  | 0 => .hang
  | f + 1 => .bindEq (BR.blind_peek _) fun _ => .ite (.pure rfl) (.bindEq (BR.blind_skip _) fun _ => blind_alignToLoop c f)

/-- `AlignTo` is an operation as `C139` allows them: what it does does not depend on the number of bytes read before. -/
theorem posBlind_alignTo (c : Nat) : PosBlind (alignTo c) :=
  of_blind (.bindEq blind_alignIfNeeded fun _ => blind_fuel (blind_alignToLoop c) fun s t h => fuel_bits 1 s t h)

/-- **C139**: two decoders that have the same input before them, at the same position within a byte, hold the same frames and
matrices, and whose current headers agree in the size of the pictures, the chroma format, temporal reference and coding type of
the picture and those fields of its extension that say how macroblocks are coded.  All other fields of these headers may differ
(aspect ratio, frame rate, bit rate, buffer sizes and delays, profile and level, low_delay, progressive flags, field order and
repetition, composite display, MPEG-1 vector codes, extra information), and so may the group of pictures headers and the number
of bytes read before.  Whatever the input, and whatever an application does with them: every call has exactly the same result
in both. -/
theorem C139 (fuel k : Nat) : ∀ (l : List Action) {s t : VS}, (∀ a ∈ l, a.OK) → Alike s t →
    (perform fuel k l s).1 = (perform fuel k l t).1 ∧ Alike (perform fuel k l s).2 (perform fuel k l t).2
  | [], _, _, _, h => ⟨rfl, h⟩
  | .next :: l, s, t, hl, h => by
    obtain ⟨h1, h2⟩ := alike_next fuel k s t h
    obtain ⟨h3, h4⟩ := C139 fuel k l (fun a ha => hl a (List.mem_cons_of_mem _ ha)) h2
    refine ⟨?_, h4⟩
    show _ :: _ = _ :: _
    rw [sameRes_eq h1, h3]
  | .reader m :: l, s, t, hl, h =>
    C139 fuel k l (fun a ha => hl a (List.mem_cons_of_mem _ ha)) (alike_lift (blind_of (hl _ List.mem_cons_self)) s t h).2

/-- **C139**, in the stream: the headers before the data of a picture are replaced by others that are alike as far as decoding is
concerned, also by longer or shorter ones, with other user data and other extensions (except for quantiser matrices).  The call of
`Next` that reads them has the same result, and so has everything that is done afterwards. -/
theorem C139_headers {a b : Heads} (hab : HeadsAlike a b) (oa : a.OK) (ob : b.OK) {fuel : Nat} {following : List Bool} {stop : Err}
    {later : List (List Bool × Err)} (hn : PictureNext following) {s t : VS} (hs : a.Before fuel following stop later s)
    (ht : b.Before fuel following stop later t)
    (h0 : a.seq = none → Both SeqAlike s.sh t.sh ∧ Both SeqExtAlike s.se t.se ∧ s.qm = t.qm)
    (h1 : s.fs = t.fs) (h2 : s.frameCounter = t.frameCounter) (hd : s.fs.tryGet s.frameCounter = none)
    (k : Nat) (l : List Action) (hl : ∀ x ∈ l, x.OK) :
    (perform fuel (k + 1) (.next :: l) s).1 = (perform fuel (k + 1) (.next :: l) t).1 ∧
    Alike (perform fuel (k + 1) (.next :: l) s).2 (perform fuel (k + 1) (.next :: l) t).2 := by
  obtain ⟨c, rest, hc, hc1, hc2, rfl⟩ := hn
  obtain ⟨a1, ka, pa, ba, a2, a3, a4, a5, a6, a7⟩ := hs
  obtain ⟨b1, kb, pb, bb, b2, b3, b4, b5, b6, b7⟩ := ht
  rw [code32_bits hc, List.append_assoc] at a6 b6
  obtain ⟨s', es, hs'⟩ := heads_run (fuel := fuel) oa a1 a5 a2 a3 a4 hc hc1 hc2 a7 a6
  obtain ⟨t', et, ht'⟩ := heads_run (fuel := fuel) ob b1 b5 b2 b3 b4 hc hc1 hc2 b7 b6
  have hal := after_alike hab oa ob hs' ht' h0 h1 h2
  have e1 : ∀ {u u' : VS}, u.fs.tryGet u.frameCounter = none → stepHead fuel u = (.ok (), u') →
      VS.next fuel (k + 1) u = (pictureStep >>= afterPicture fuel k) u' := by
    intro u u' h1 h2
    have h3 : step fuel u = pictureStep u' := by rw [step_head, Go.bind_ok h2]
    unfold VS.next
    rw [h1]
    dsimp only
    rw [nextLoop_picture]
    rcases hx : pictureStep u' with ⟨r, v⟩
    rw [hx] at h3
    cases r with
    | ok f => rw [Go.bind_ok hx, Go.bind_ok h3]
    | err e => rw [Go.bind_err hx, Go.bind_err h3]
    | panic => rw [Go.bind_panic hx, Go.bind_panic h3]
    | hang => rw [Go.bind_hang hx, Go.bind_hang h3]
  have hdt : t.fs.tryGet t.frameCounter = none := by rw [← h1, ← h2]; exact hd
  have h3 := (Go.Step.bindEq alike_pictureStep fun f => alike_afterPicture fuel k f) s' t' hal
  rw [← e1 hd es, ← e1 hdt et] at h3
  obtain ⟨h3, h4⟩ := h3
  obtain ⟨h5, h6⟩ := C139 fuel (k + 1) l hl h4
  refine ⟨?_, h6⟩
  show _ :: _ = _ :: _
  rw [sameRes_eq h3, h5]

/-- **C139**, in the stream, also while frames are waiting in the store: any number of calls of `Next` have the same results. -/
theorem C139_calls {a b : Heads} (hab : HeadsAlike a b) (oa : a.OK) (ob : b.OK) {fuel : Nat} {following : List Bool} {stop : Err}
    {later : List (List Bool × Err)} (hn : PictureNext following) (k : Nat) : ∀ (n : Nat) {s t : VS},
    a.Before fuel following stop later s → b.Before fuel following stop later t →
    (a.seq = none → Both SeqAlike s.sh t.sh ∧ Both SeqExtAlike s.se t.se ∧ s.qm = t.qm) →
    s.fs = t.fs → s.frameCounter = t.frameCounter →
    (perform fuel (k + 1) (List.replicate n .next) s).1 = (perform fuel (k + 1) (List.replicate n .next) t).1
  | 0, _, _, _, _, _, _, _ => rfl
  | n + 1, s, t, hs, ht, h0, h1, h2 => by
    cases hd : s.fs.tryGet s.frameCounter with
    | none =>
      refine (C139_headers hab oa ob hn hs ht h0 h1 h2 hd k (List.replicate n .next) fun x hx => ?_).1
      rw [List.eq_of_mem_replicate hx]
      trivial
    | some f =>
      have e1 : VS.next fuel (k + 1) s = (.ok f, s.count) := by unfold VS.next; rw [hd]
      have e2 : VS.next fuel (k + 1) t = (.ok f, t.count) := by unfold VS.next; rw [← h1, ← h2, hd]
      have h3 := C139_calls hab oa ob hn k n (s := s.count) (t := t.count) hs ht h0 h1 (by
        unfold VS.count; dsimp only; rw [h2])
      show (VS.next fuel (k + 1) s).1 :: (perform fuel (k + 1) (List.replicate n .next) (VS.next fuel (k + 1) s).2).1 =
        (VS.next fuel (k + 1) t).1 :: (perform fuel (k + 1) (List.replicate n .next) (VS.next fuel (k + 1) t).2).1
      rw [e1, e2, h3]

namespace ExDisplay
open ExStream ExResync ExRounds

/-- the headers of the first picture of `stream3` -/
def plain : Heads := ⟨some ⟨seqH 16, seqE 1, []⟩, some ⟨gopH, []⟩, ⟨0, .other 1, 0, []⟩, picE, []⟩
/-- another aspect ratio, frame rate, bit rate, buffer size, profile and level, low delay; another time code, an open group with a
broken link and user data; another buffer delay and extra information; another order of fields, with composite display -/
def fancy : Heads :=
  ⟨some ⟨{ seqH 16 with aspect := 3, rate := 5, bitRate := 4711, vbv := 12, constrained := true },
      { seqE 1 with profile := 0x44, bitRateExt := 9, vbvExt := 3, lowDelay := 1, rateN := 2, rateD := 7 }, []⟩,
    some ⟨⟨true, 12, 34, true, 56, 7, false, true⟩, [.user [65, 66]]⟩, ⟨0, .other 1, 4321, [1, 2, 3]⟩,
    { picE with topFieldFirst := true, repeatFirstField := true, chroma420 := false, progressive := false,
                composite := some ⟨true, 5, false, 100, 200⟩ }, []⟩

theorem plain_fancy : HeadsAlike plain fancy :=
  ⟨.some ⟨rfl, rfl, rfl, rfl, rfl, rfl, rfl⟩, rfl, rfl, rfl, ⟨rfl, rfl, rfl, rfl⟩, rfl, rfl, rfl, rfl, rfl, rfl, rfl, rfl⟩
theorem plain_ok : plain.OK := ⟨fun q hq => by cases hq; decide, fun g hg => by cases hg; decide, by decide,
  ⟨by decide, by decide, by decide, by decide, by decide, by decide, by decide, by decide, by decide, by decide, fun c hc => by cases hc⟩⟩
theorem fancy_ok : fancy.OK := ⟨fun q hq => by cases hq; decide, fun g hg => by cases hg; decide, by decide,
  ⟨by decide, by decide, by decide, by decide, by decide, by decide, by decide, by decide, by decide, by decide,
    fun c hc => by cases hc; decide⟩⟩

def headsBits (h : Heads) (q : SeqPart) (g : GopPart) (u : List Bool) : List Bool :=
  byte (encSeq q.hdr) ++ (byte (encSeqExt q.ext) ++ (byte (encGOP g.hdr) ++ (u ++ (byte (encPic h.hdr) ++ byte (encPicExt h.ext)))))
def bitsA : List Bool := headsBits plain ⟨seqH 16, seqE 1, []⟩ ⟨gopH, []⟩ []
def bitsB : List Bool := headsBits fancy (fancy.seq.getD ⟨seqH 16, seqE 1, []⟩) (fancy.gop.getD ⟨gopH, []⟩) (encUser [65, 66])
/-- the data of the picture, and two further pictures -/
def behind : List Bool := sliceBits ++ (byte (encPic ⟨1, .p 0 7, 0, []⟩) ++ (byte (encPicExt picE) ++
  (byte ((sl 0 mbP).head ((cx 16 1).env picP) ++ ((codeP ⟨none, none⟩ blank).bits ++ [])) ++ (bitsG ++ bitsOf 32 0x1B7))))

theorem partsA16 : Parts 16 plain.parts bitsA := by
  refine parts_cast (p := 16) (b := byte (encSeq (seqH 16)) ++ (byte (encSeqExt (seqE 1)) ++ ([] ++ (byte (encGOP gopH) ++ ([] ++
    (byte (encPic ⟨0, .other 1, 0, []⟩) ++ (byte (encPicExt picE) ++ ([] ++ [])))))))) ?_ rfl rfl
  refine .cons (stuffed_byte _ (by decide)) ?_
  refine .cons (stuffed_byte _ (by decide +kernel)) ?_
  refine .cons (b := []) .nil ?_
  refine .cons (stuffed_byte _ (by decide +kernel)) ?_
  refine .cons (b := []) .nil ?_
  refine .cons (stuffed_byte _ (by decide +kernel)) ?_
  refine .cons (stuffed_byte _ (by decide +kernel)) ?_
  exact .cons (b := []) .nil .nil
theorem partsB : Parts 0 fancy.parts bitsB := by
  have u1 : UserOK [65, 66] := ⟨by decide, by decide +kernel⟩
  refine parts_cast (p := 0) (b := byte (encSeq (fancy.seq.getD ⟨seqH 16, seqE 1, []⟩).hdr) ++
    (byte (encSeqExt (fancy.seq.getD ⟨seqH 16, seqE 1, []⟩).ext) ++ ([] ++ (byte (encGOP (fancy.gop.getD ⟨gopH, []⟩).hdr) ++
    ((encUser [65, 66] ++ []) ++ (byte (encPic fancy.hdr) ++ (byte (encPicExt fancy.ext) ++ ([] ++ [])))))))) ?_ rfl ?_
  · refine .cons (stuffed_byte _ (by decide)) ?_
    refine .cons (stuffed_byte _ (by decide +kernel)) ?_
    refine .cons (b := []) .nil ?_
    refine .cons (stuffed_byte _ (by decide +kernel)) ?_
    refine .cons (ItemsCode.user (more := []) u1 .nil) ?_
    refine .cons (stuffed_byte _ (by decide +kernel)) ?_
    refine .cons (stuffed_byte _ (by decide +kernel)) ?_
    exact .cons (b := []) .nil .nil
  · unfold bitsB headsBits
    simp only [List.append_nil, List.nil_append]

theorem next_ok : PictureNext behind := by
  refine ⟨1, behind.drop 32, by decide, by decide, by decide, ?_⟩
  rw [show bitsOf 32 (0x100 + 1) = behind.take 32 from by decide +kernel, List.take_append_drop]

/-- two zero bytes before the one, none before the other -/
def decA : VS := VS.new ⟨zeros (8 * 2) ++ (bitsA ++ behind), 0, .eof, []⟩
def decB : VS := VS.new ⟨bitsB ++ behind, 0, .eof, []⟩

example (n : Nat) : (perform 1000 4 (List.replicate n .next) decA).1 = (perform 1000 4 (List.replicate n .next) decB).1 := by
  have hA : plain.Before 1000 behind .eof [] decA := ⟨fun h => (by cases h), 2, 16, bitsA, partsA16, by decide, by decide,
    fun h => absurd rfl h, rfl, by decide +kernel⟩
  have hB : fancy.Before 1000 behind .eof [] decB := ⟨fun h => (by cases h), 0, 0, bitsB, partsB, by decide, by decide,
    fun _ => rfl, rfl, by decide +kernel⟩
  exact C139_calls plain_fancy plain_ok fancy_ok next_ok 3 n hA hB (fun h => by cases h) rfl rfl

/-- there are three pictures, and the header blocks have different lengths -/
example : (perform 1000 4 (List.replicate 4 .next) decA).1.map (fun r => match r with | .ok _ => true | _ => false) =
    [true, true, true, false] ∧ bitsA.length ≠ bitsB.length := by decide +kernel

end ExDisplay

end Mpeg.Video
