/-
The parsers of package ps on encoded headers, packets and packs.
-/
import Verif.PS.Model
import Verif.PS.Spec
import Verif.PES.BodyLemmas
set_option linter.all false
namespace Mpeg
section
variable {r : List Bool} {pos : Nat} {stop : Err} {later : List (List Bool × Err)}

theorem codeCheck_bits (k c : Nat) {v : Nat} (hv : v < 2 ^ k) :
    codeCheck k c ⟨bitsOf k v ++ r, pos, stop, later⟩ =
      (.ok (v == c), ⟨bitsOf k v ++ r, pos, stop, later⟩) := by
  unfold codeCheck
  rw [Go.bind_ok (BR.peek_bitsOf k v), Nat.mod_eq_of_lt hv]
  rfl

theorem codeAssert_bits (k c : Nat) (e : Err) (hc : c < 2 ^ k) :
    codeAssert k c e ⟨bitsOf k c ++ r, pos, stop, later⟩ = (.ok (), ⟨r, pos + k, stop, later⟩) := by
  unfold codeAssert
  rw [Go.bind_ok (codeCheck_bits k c hc), beq_self_eq_true]
  rw [Go.bind_ok (show Go.check true e _ = (.ok (), _) from rfl), BR.skip_bitsOf]
end

namespace PS
open Spec
section
variable {r : List Bool} {pos : Nat} {stop : Err} {later : List (List Bool × Err)}

theorem marker_bitsOf (k x : Nat) (hx : x < 2 ^ k) :
    marker k x ⟨bitsOf k x ++ r, pos, stop, later⟩ = (.ok (), ⟨r, pos + k, stop, later⟩) := by
  unfold marker
  rw [Go.bind_ok (BR.read_bitsOf k x), Nat.mod_eq_of_lt hx, beq_self_eq_true]
  rfl

@[simp] theorem marker_one :
    marker 1 1 ⟨true :: r, pos, stop, later⟩ = (.ok (), ⟨r, pos + 1, stop, later⟩) :=
  marker_bitsOf 1 1 (by decide)

theorem skipStuffing_enc : ∀ (d : List UInt8) (pos : Nat),
    skipStuffing d.length ⟨bitsOfBytes d ++ r, pos, stop, later⟩ =
      (.ok (), ⟨r, pos + 8 * d.length, stop, later⟩)
  | [], pos => rfl
  | b :: d, pos => by
    simp only [List.length_cons, skipStuffing, bitsOfBytes_cons, List.append_assoc, Go.bind_apply]
    have : Go.ignoreErr (BR.skip 8) ⟨bitsOf 8 b.toNat ++ (bitsOfBytes d ++ r), pos, stop, later⟩ =
        (.ok (), ⟨bitsOfBytes d ++ r, pos + 8, stop, later⟩) := by
      simp [Go.ignoreErr]
    rw [this]
    simp only [skipStuffing_enc d]
    congr 2
    omega

def viewFixed (h : PHdr) : PackHeader :=
  { scrBase := h.scrBase % 2 ^ 32, scrExtension := h.scrExt, muxRate := h.muxRate }

theorem readPackFixed_enc (h : PHdr) (hw : h.WF) :
    readPackFixed ⟨encPHdrFixed h ++ r, pos, stop, later⟩ =
      (.ok (viewFixed h), ⟨r, pos + 112 + 8 * h.stuffing.length, stop, later⟩) := by
  obtain ⟨h1, h2, h3, h4, h5, h6⟩ := hw
  simp only [readPackFixed, encPHdrFixed, List.append_assoc, List.cons_append, List.nil_append, Go.bind_apply,
    codeAssert_bits 32 packStartCode _ (by decide), marker_bitsOf 2 1 (by decide), marker_one, BR.read_bitsOf,
    BR.skip_bitsOf]
  rw [show h.stuffing.length % 2 ^ 3 = h.stuffing.length from Nat.mod_eq_of_lt h5]
  simp only [skipStuffing_enc, Go.pure_apply]
  rw [PES.stamp_or (by omega) (by omega) (by omega)]
  have : h.scrBase / 2 ^ 30 % 2 ^ 3 * 2 ^ 30 + h.scrBase / 2 ^ 15 % 2 ^ 15 % 2 ^ 15 * 2 ^ 15 +
    h.scrBase % 2 ^ 15 % 2 ^ 15 = h.scrBase := by omega
  rw [this, Nat.mod_eq_of_lt h2, Nat.mod_eq_of_lt h3]
  rfl

/-! ### system header -/

def viewEntry (e : Entry) : Stream := ⟨e.id, e.scale, e.size⟩

theorem readStream_enc (e : Entry) (h : e.WF) :
    readStream ⟨encEntry e ++ r, pos, stop, later⟩ = (.ok (viewEntry e), ⟨r, pos + 24, stop, later⟩) := by
  obtain ⟨h1, h2, h3⟩ := h
  simp only [readStream, encEntry, List.append_assoc, List.cons_append, List.nil_append, Go.bind_apply,
    BR.read_bitsOf, marker_bitsOf 2 3 (by decide), BR.read1_cons, Go.pure_apply]
  rw [Nat.mod_eq_of_lt (show e.id < 2 ^ 8 from h2), Nat.mod_eq_of_lt h3]
  rfl

theorem peek_entry (e : Entry) (h : e.WF) :
    BR.peek 1 ⟨encEntry e ++ r, pos, stop, later⟩ = (.ok 1, ⟨encEntry e ++ r, pos, stop, later⟩) := by
  obtain ⟨h1, h2, h3⟩ := h
  have : bitsOf 8 e.id = bitsOf 1 1 ++ bitsOf 7 e.id := by
    rw [bitsOf_append 1 7, show e.id / 2 ^ 7 = 1 by omega]
  simp only [encEntry, this, List.append_assoc]
  exact BR.peek_bitsOf 1 1

theorem streamsLoop_enc : ∀ (l : List Entry) (fuel pos : Nat), (∀ e ∈ l, e.WF) → l.length < fuel →
    streamsLoop fuel ⟨l.flatMap encEntry ++ (false :: r), pos, stop, later⟩ =
      (.ok (l.map viewEntry), ⟨false :: r, pos + 24 * l.length, stop, later⟩)
  | [], 0, pos, h, hf => by simp at hf
  | [], f + 1, pos, h, hf => by
    have : BR.peek 1 ⟨false :: r, pos, stop, later⟩ = (.ok 0, ⟨false :: r, pos, stop, later⟩) :=
      BR.peek_bitsOf 1 0
    simp only [List.flatMap_nil, List.nil_append, streamsLoop]
    rw [Go.bind_ok this]
    rfl
  | e :: l, 0, pos, h, hf => by simp at hf
  | e :: l, f + 1, pos, h, hf => by
    have he := h e (List.mem_cons_self ..)
    simp only [List.flatMap_cons, List.append_assoc, streamsLoop]
    rw [Go.bind_ok (peek_entry e he), if_pos rfl, Go.bind_ok (readStream_enc e he),
      Go.bind_ok (streamsLoop_enc l f (pos + 24) (fun e he => h e (List.mem_cons_of_mem _ he))
        (by simp only [List.length_cons] at hf; omega)), Go.pure_apply]
    simp only [List.map_cons, List.length_cons, Prod.mk.injEq, BR.mk.injEq, true_and, and_true]
    omega

theorem length_entries (l : List Entry) : (l.flatMap encEntry).length = 24 * l.length := by
  induction l with
  | nil => rfl
  | cons e l ih =>
    simp only [List.flatMap_cons, List.length_append, ih, List.length_cons]
    simp only [encEntry, List.length_append, length_bitsOf, List.length_cons, List.length_nil]
    omega

theorem readStreams_enc (l : List Entry) (h : ∀ e ∈ l, e.WF) :
    readStreams ⟨l.flatMap encEntry ++ (false :: r), pos, stop, later⟩ =
      (.ok (l.map viewEntry), ⟨false :: r, pos + 24 * l.length, stop, later⟩) := by
  refine streamsLoop_enc l _ pos h ?_
  simp only [List.length_append, length_entries]
  omega

/-- what the parser reports for a system header: the video bound in place of the audio bound -/
def viewSys (s : Sys) : SystemHeader :=
  { headerLength := s.len, rateBound := s.rateBound, audioBound := s.videoBound, fixed := s.fixed, csps := s.csps,
    audioLock := s.audioLock, videoLock := s.videoLock, videoBound := 0,
    packetRateRestriction := s.packetRateRestriction, streams := s.streams.map viewEntry }

theorem readSystemHeader_enc (s : Sys) (h : s.WF) :
    readSystemHeader ⟨encSys s ++ (false :: r), pos, stop, later⟩ =
      (.ok (viewSys s), ⟨false :: r, pos + 96 + 24 * s.streams.length, stop, later⟩) := by
  obtain ⟨h1, h2, h3, h4, h5, h6⟩ := h
  simp only [readSystemHeader, encSys, List.append_assoc, List.cons_append, List.nil_append, Go.bind_apply,
    BR.read_bitsOf, BR.skip_bitsOf, marker_one, BR.read1_cons, readStreams_enc _ h5, Go.pure_apply]
  rw [Nat.mod_eq_of_lt (show s.len < 2 ^ 16 from h6), Nat.mod_eq_of_lt h1, Nat.mod_eq_of_lt h3]
  rfl

def viewPHdr (h : PHdr) : PackHeader := { viewFixed h with system := h.system.map viewSys }

/-- what may follow a pack header: the rest of the pack -/
def Follows (h : PHdr) (r : List Bool) : Prop :=
  match h.system with
  | none => ∃ v r', v < 2 ^ 32 ∧ v ≠ systemHeaderStartCode ∧ r = bitsOf 32 v ++ r'
  | some _ => ∃ r', r = false :: r'

theorem length_encSys (s : Sys) : (encSys s).length = 96 + 24 * s.streams.length := by
  simp only [encSys, List.length_append, length_bitsOf, List.length_cons, List.length_nil, length_entries]

theorem length_encPHdrFixed (h : PHdr) : (encPHdrFixed h).length = 112 + 8 * h.stuffing.length := by
  simp only [encPHdrFixed, List.length_append, length_bitsOf, List.length_cons, List.length_nil,
    length_bitsOfBytes]

theorem newPackHeader_enc (h : PHdr) (hw : h.WF) (hr : Follows h r) :
    newPackHeader ⟨encPHdr h ++ r, pos, stop, later⟩ =
      (.ok (viewPHdr h), ⟨r, pos + (encPHdr h).length, stop, later⟩) := by
  unfold newPackHeader
  cases hs : h.system with
  | none =>
    simp only [Follows, hs] at hr
    obtain ⟨v, r', hv, hne, rfl⟩ := hr
    simp only [encPHdr, hs, encOptSys, List.append_nil]
    rw [Go.bind_ok (readPackFixed_enc h hw), Go.bind_ok (codeCheck_bits 32 _ hv),
      beq_eq_false_iff_ne.mpr hne]
    simp only [viewPHdr, hs, length_encPHdrFixed, Option.map_none]
    rw [← Nat.add_assoc]
    rfl
  | some s =>
    simp only [Follows, hs] at hr
    obtain ⟨r', rfl⟩ := hr
    have hws : s.WF := hw.2.2.2.2.2 s hs
    have hc : ∀ pos, codeCheck 32 systemHeaderStartCode ⟨encSys s ++ (false :: r'), pos, stop, later⟩ =
        (.ok true, ⟨encSys s ++ (false :: r'), pos, stop, later⟩) := by
      intro pos
      simp only [encSys, List.append_assoc]
      exact codeCheck_bits 32 _ (by decide)
    simp only [encPHdr, hs, encOptSys, List.append_assoc]
    rw [Go.bind_ok (readPackFixed_enc h hw), Go.bind_ok (hc _)]
    have hm : ∀ pos, (some <$> readSystemHeader) ⟨encSys s ++ (false :: r'), pos, stop, later⟩ =
        (.ok (some (viewSys s)), ⟨false :: r', pos + 96 + 24 * s.streams.length, stop, later⟩) := by
      intro pos
      rw [Go.map_apply, readSystemHeader_enc s hws]
    rw [show (Go.opt true none (some <$> readSystemHeader) : Go BR _) = some <$> readSystemHeader from rfl,
      Go.bind_ok (hm _), Go.pure_apply]
    simp only [viewPHdr, hs, Option.map_some, List.length_append, length_encPHdrFixed, length_encSys,
      Prod.mk.injEq, BR.mk.injEq, true_and, and_true]
    omega
end
end PS
end Mpeg
