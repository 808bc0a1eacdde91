/-
Forward execution of the PES parser on encoded packets.
-/
import Verif.PES.Model
import Verif.PES.Spec
import Verif.Base.Meta
import Verif.TS.Lemmas
set_option linter.all false
namespace Mpeg.PES
open Spec
open Mpeg.TS (sub32)

/-! ### the parsed form of an encoded header -/

def viewExt (e : Ext) : Extension :=
  { privateDataFlag := e.priv.isSome, pStdBufferFlag := e.pstd.isSome,
    privateData := e.priv.getD [], pStdBuffer := e.pstd.map fun b => ⟨b.2.1, b.2.2⟩ }

/-- The time stamps as the parser reports them: the top bit of the 33 is lost in a `uint32`. -/
def viewPts : Stamps → Nat
  | .none => 0
  | .forbidden => 0
  | .pts p => p.value % 2 ^ 32
  | .ptsDts p _ => p.value % 2 ^ 32

def viewDts : Stamps → Nat
  | .none => 0
  | .forbidden => 0
  | .pts _ => 0
  | .ptsDts _ d => d.value % 2 ^ 32

def viewHdr (h : Hdr) : Header :=
  { scramblingControl := h.scrambling, priority := h.priority, dataAlignmentIndicator := h.alignment,
    copyright := h.copyright, originalOrCopy := h.original, ptsDtsFlags := h.stamps.flags,
    extensionFlag := h.ext.isSome, headerDataLength := h.dataLen,
    presentationTimeStamp := viewPts h.stamps, decodingTimeStamp := viewDts h.stamps,
    extension := h.ext.map viewExt }

section
variable {r : List Bool} {pos : Nat} {stop : Err} {later : List (List Bool × Err)}

theorem marker_bitsOf (k v x : Nat) (hx : x < 2 ^ k) :
    marker k v ⟨bitsOf k x ++ r, pos, stop, later⟩ =
      ((if x = v then .ok () else .err .markerNotFound), ⟨r, pos + k, stop, later⟩) := by
  simp only [marker, BR.read_bitsOf, Nat.mod_eq_of_lt hx]
  split <;> rfl

theorem bitsOf_one (b : Bool) : bitsOf 1 (if b then 1 else 0) = [b] := by cases b <;> rfl

theorem marker_bit (b : Bool) :
    marker 1 1 ⟨b :: r, pos, stop, later⟩ =
      ((if b then .ok () else .err .markerNotFound), ⟨r, pos + 1, stop, later⟩) := by
  have := marker_bitsOf (r := r) (pos := pos) (stop := stop) (later := later) 1 1
    (if b then 1 else 0) (by cases b <;> decide)
  rw [bitsOf_one] at this
  cases b <;> simpa using this

theorem stamp_or {a b c : Nat} (ha : a < 8) (hb : b < 2 ^ 15) (hc : c < 2 ^ 15) :
    ((a <<< 30) % 2 ^ 32 ||| (b <<< 15) % 2 ^ 32) ||| c = (a * 2 ^ 30 + b * 2 ^ 15 + c) % 2 ^ 32 := by
  have h1 : (a <<< 30) % 2 ^ 32 = (a % 4) <<< 30 := by
    simp only [Nat.shiftLeft_eq]; omega
  have h2 : (b <<< 15) % 2 ^ 32 = b <<< 15 := by
    simp only [Nat.shiftLeft_eq]; omega
  rw [h1, h2]
  rw [← Nat.shiftLeft_add_eq_or_of_lt (i := 30) (by simp only [Nat.shiftLeft_eq]; omega)]
  have : (a % 4) <<< 30 + b <<< 15 = ((a % 4) * 2 ^ 15 + b) <<< 15 := by
    simp only [Nat.shiftLeft_eq]; omega
  rw [this, ← Nat.shiftLeft_add_eq_or_of_lt hc]
  simp only [Nat.shiftLeft_eq]; omega

/-- The time stamp parser on any time stamp field. -/
theorem readTimeStamp_enc (m : Nat) (t : Stamp) (h : t.WF) (hg : t.good m = true) :
    readTimeStamp m ⟨encStamp t ++ r, pos, stop, later⟩ =
      (.ok (t.value % 2 ^ 32), ⟨r, pos + 40, stop, later⟩) := by
  obtain ⟨h1, h2⟩ := h
  simp only [Stamp.good, Bool.and_eq_true, beq_iff_eq] at hg
  obtain ⟨⟨⟨e1, e2⟩, e3⟩, e4⟩ := hg
  subst e1
  simp only [readTimeStamp, encStamp, List.append_assoc, Go.bind_apply, marker_bitsOf 4 t.pre t.pre h1,
    ↓reduceIte, BR.read_bitsOf, List.cons_append, List.nil_append, marker_bit, e2, e3, e4, Go.pure_apply]
  rw [stamp_or (by omega) (by omega) (by omega)]
  have : t.value / 2 ^ 30 % 2 ^ 3 * 2 ^ 30 + t.value / 2 ^ 15 % 2 ^ 15 % 2 ^ 15 * 2 ^ 15 +
    t.value % 2 ^ 15 % 2 ^ 15 = t.value := by omega
  rw [this]

theorem readTimeStamp_bad (m : Nat) (t : Stamp) (h : t.WF) (hg : t.good m = false) :
    (readTimeStamp m ⟨encStamp t ++ r, pos, stop, later⟩).1 = .err .markerNotFound := by
  obtain ⟨h1, h2⟩ := h
  simp only [readTimeStamp, encStamp, List.append_assoc, Go.bind_apply, marker_bitsOf 4 m t.pre h1]
  by_cases e1 : t.pre = m
  · simp only [e1, ↓reduceIte, BR.read_bitsOf, List.cons_append, List.nil_append, marker_bit]
    cases e2 : t.m1
    · rfl
    simp only [↓reduceIte, BR.read_bitsOf, marker_bit]
    cases e3 : t.m2
    · rfl
    simp only [↓reduceIte, BR.read_bitsOf, marker_bit]
    cases e4 : t.m3
    · rfl
    simp [Stamp.good, e1, e2, e3, e4] at hg
  · simp only [e1, if_false]

theorem length_encStamp (t : Stamp) : (encStamp t).length = 40 := by simp [encStamp]

theorem readStamps_enc (t : Stamps) (h : t.WF) (hg : t.good = true) :
    readStamps t.flags ⟨encStamps t ++ r, pos, stop, later⟩ =
      (.ok (viewPts t, viewDts t, t.len), ⟨r, pos + 8 * t.len, stop, later⟩) := by
  cases t with
  | none => simp [readStamps, Stamps.flags, encStamps, viewPts, viewDts, Stamps.len]
  | forbidden => simp [readStamps, Stamps.flags, encStamps, viewPts, viewDts, Stamps.len]
  | pts p =>
    simp only [readStamps, Stamps.flags, encStamps, viewPts, viewDts, Stamps.len, Go.ite_apply, ↓reduceIte,
      Go.bind_apply]
    rw [readTimeStamp_enc 2 p h hg]
    rfl
  | ptsDts p d =>
    simp only [Stamps.good, Bool.and_eq_true] at hg
    simp only [readStamps, Stamps.flags, encStamps, viewPts, viewDts, Stamps.len, Go.ite_apply, ↓reduceIte,
      Go.bind_apply, show ¬ (3 = 2) by decide, if_false, List.append_assoc]
    rw [readTimeStamp_enc 3 p h.1 hg.1]
    simp only []
    rw [readTimeStamp_enc 1 d h.2 hg.2]
    rfl

theorem readStamps_bad (t : Stamps) (h : t.WF) (hg : t.good = false) :
    (readStamps t.flags ⟨encStamps t ++ r, pos, stop, later⟩).1 = .err .markerNotFound := by
  cases t with
  | none => simp [Stamps.good] at hg
  | forbidden => simp [Stamps.good] at hg
  | pts p =>
    have := readTimeStamp_bad (r := r) (pos := pos) (stop := stop) (later := later) 2 p h hg
    simp only [readStamps, Stamps.flags, encStamps, Go.ite_apply, ↓reduceIte, Go.bind_apply]
    generalize readTimeStamp 2 _ = x at this ⊢
    obtain ⟨x, y⟩ := x; simp only at this; subst this; rfl
  | ptsDts p d =>
    simp only [readStamps, Stamps.flags, encStamps, Go.ite_apply, ↓reduceIte,
      Go.bind_apply, show ¬ (3 = 2) by decide, if_false, List.append_assoc]
    cases hp : p.good 3
    · have := readTimeStamp_bad (r := encStamp d ++ r) (pos := pos) (stop := stop) (later := later)
        3 p h.1 hp
      generalize readTimeStamp 3 _ = x at this ⊢
      obtain ⟨x, y⟩ := x; simp only at this; subst this; rfl
    · rw [readTimeStamp_enc 3 p h.1 hp]
      simp only []
      have hd : d.good 1 = false := by simpa [Stamps.good, hp] using hg
      have := readTimeStamp_bad (r := r) (pos := pos + 40) (stop := stop) (later := later) 1 d h.2 hd
      generalize readTimeStamp 1 _ = x at this ⊢
      obtain ⟨x, y⟩ := x; simp only at this; subst this; rfl

theorem readStuffing_enc : ∀ (l : List UInt8) (pos : Nat), l.all (· == 255) = true →
    readStuffing l.length ⟨bitsOfBytes l ++ r, pos, stop, later⟩ =
      (.ok (), ⟨r, pos + 8 * l.length, stop, later⟩)
  | [], pos, _ => by simp [readStuffing]
  | b :: l, pos, h => by
    simp only [List.all_cons, Bool.and_eq_true, beq_iff_eq] at h
    obtain ⟨rfl, h⟩ := h
    simp only [List.length_cons, readStuffing, bitsOfBytes_cons, List.append_assoc, Go.bind_apply,
      BR.read_bitsOf]
    rw [show ((255 : UInt8).toNat % 2 ^ 8 == 255) = true from rfl]
    simp only [Go.check_true, Go.pure_apply]
    rw [readStuffing_enc l _ h, show pos + 8 + 8 * l.length = pos + 8 * (l.length + 1) by omega]

theorem readStuffing_bad : ∀ (l : List UInt8) (pos : Nat), l.all (· == 255) = false →
    (readStuffing l.length ⟨bitsOfBytes l ++ r, pos, stop, later⟩).1 = .err .invalidStuffingByte
  | [], pos, h => by simp at h
  | b :: l, pos, h => by
    simp only [List.length_cons, readStuffing, bitsOfBytes_cons, List.append_assoc, Go.bind_apply,
      BR.read_bitsOf]
    by_cases hb : b = 255
    · subst hb
      rw [show ((255 : UInt8).toNat % 2 ^ 8 == 255) = true from rfl]
      simp only [Go.check_true, Go.pure_apply]
      exact readStuffing_bad l _ (by simpa using h)
    · have : (b.toNat % 2 ^ 8 == 255) = false := by
        have h1 := b.toNat_lt
        have h2 : b.toNat ≠ 255 := fun h => hb (UInt8.toNat_inj.mp h)
        simp only [beq_eq_false_iff_ne]; omega
      rw [this]
      simp

theorem readExact_bytes {n : Nat} {bs : List UInt8} (h : bs.length = n) :
    readExact n ⟨bitsOfBytes bs ++ r, pos, stop, later⟩ = (.ok bs, ⟨r, pos + 8 * n, stop, later⟩) := by
  simp [readExact, Go.bind_apply, BR.readFull_bytes h]

theorem readPStd_enc {m sc sz : Nat} (h1 : m < 4) (h2 : sc < 2) (h3 : sz < 2 ^ 13) (hm : m = 1) :
    readPStd ⟨encPStd (some (m, sc, sz)) ++ r, pos, stop, later⟩ =
      (.ok ⟨sc, sz⟩, ⟨r, pos + 16, stop, later⟩) := by
  subst hm
  simp only [readPStd, encPStd, List.append_assoc, Go.bind_apply, marker_bitsOf 2 1 1 h1, ↓reduceIte,
    BR.read_bitsOf, Go.pure_apply]
  rw [Nat.mod_eq_of_lt (by omega : sc < 2 ^ 1), Nat.mod_eq_of_lt h3]

theorem readPStd_bad {m sc sz : Nat} (h1 : m < 4) (hm : m ≠ 1) :
    (readPStd ⟨encPStd (some (m, sc, sz)) ++ r, pos, stop, later⟩).1 = .err .markerNotFound := by
  simp [readPStd, encPStd, List.append_assoc, Go.bind_apply, marker_bitsOf 2 1 m h1, hm]

theorem skip3 (n : Nat) : BR.skip 3 ⟨bitsOf 3 n ++ r, pos, stop, later⟩ =
    (.ok (), ⟨r, pos + 3, stop, later⟩) := BR.skip_bitsOf _ _

theorem optPriv_enc (d : Option (List UInt8)) (h : ∀ x ∈ d, x.length = 16) :
    Go.opt d.isSome [] (readExact 16) ⟨encPriv d ++ r, pos, stop, later⟩ =
      (.ok (d.getD []), ⟨r, pos + (if d.isSome then 128 else 0), stop, later⟩) := by
  cases d with
  | none => simp [encPriv]
  | some d =>
    simp only [Option.isSome_some, Go.opt_true, encPriv, ↓reduceIte, Option.getD_some]
    exact readExact_bytes (h d rfl)

theorem optPStd_enc (d : Option (Nat × Nat × Nat))
    (h : ∀ b ∈ d, b.1 < 4 ∧ b.2.1 < 2 ∧ b.2.2 < 2 ^ 13) (hg : d.all (fun b => b.1 == 1) = true) :
    Go.opt d.isSome none (some <$> readPStd) ⟨encPStd d ++ r, pos, stop, later⟩ =
      (.ok (d.map fun b => ⟨b.2.1, b.2.2⟩), ⟨r, pos + (if d.isSome then 16 else 0), stop, later⟩) := by
  rcases d with _ | ⟨m, sc, sz⟩
  · simp [encPStd]
  · obtain ⟨h1, h2, h3⟩ := h _ rfl
    simp only [Option.isSome_some, Go.opt_true, ↓reduceIte, Option.map_some, Go.map_apply]
    rw [readPStd_enc h1 h2 h3 (by simpa using hg)]

theorem optPStd_bad (d : Option (Nat × Nat × Nat))
    (h : ∀ b ∈ d, b.1 < 4 ∧ b.2.1 < 2 ∧ b.2.2 < 2 ^ 13) (hg : d.all (fun b => b.1 == 1) = false) :
    (Go.opt d.isSome none (some <$> readPStd) ⟨encPStd d ++ r, pos, stop, later⟩).1 =
      .err .markerNotFound := by
  rcases d with _ | ⟨m, sc, sz⟩
  · simp at hg
  · obtain ⟨h1, h2, h3⟩ := h _ rfl
    simp only [Option.isSome_some, Go.opt_true, Go.map_apply]
    have := readPStd_bad (r := r) (pos := pos) (stop := stop) (later := later) (sc := sc) (sz := sz)
      h1 (by simpa using hg)
    generalize readPStd _ = x at this ⊢
    obtain ⟨x, y⟩ := x; simp only at this; subst this; rfl

theorem readExtension_enc (e : Ext) (h : e.WF) (hg : e.good = true) :
    readExtension ⟨encExt e ++ r, pos, stop, later⟩ =
      (.ok (viewExt e, e.len), ⟨r, pos + 8 * e.len, stop, later⟩) := by
  obtain ⟨h1, h2⟩ := h
  simp only [readExtension, encExt, List.append_assoc, List.cons_append, List.nil_append,
    Go.bind_apply, BR.read1_cons, skip3, optPriv_enc e.priv h1, Go.opt_false, Go.pure_apply]
  rw [optPStd_enc e.pstd h2 hg]
  simp only [viewExt, Ext.len, Prod.mk.injEq, true_and, Res.ok.injEq, BR.mk.injEq, and_true]
  split <;> split <;> omega

theorem readExtension_bad (e : Ext) (h : e.WF) (hg : e.good = false) :
    (readExtension ⟨encExt e ++ r, pos, stop, later⟩).1 = .err .markerNotFound := by
  obtain ⟨h1, h2⟩ := h
  simp only [readExtension, encExt, List.append_assoc, List.cons_append, List.nil_append,
    Go.bind_apply, BR.read1_cons, skip3, optPriv_enc e.priv h1, Go.opt_false, Go.pure_apply]
  have := optPStd_bad (r := r) (pos := pos + 1 + 1 + 1 + 1 + 3 + 1 + if e.priv.isSome = true then 128 else 0)
    (stop := stop) (later := later) e.pstd h2 hg
  generalize Go.opt e.pstd.isSome _ _ _ = x at this ⊢
  obtain ⟨x, y⟩ := x; simp only at this; subst this; rfl

theorem optExt_enc (e : Option Ext) (h : ∀ x ∈ e, x.WF) (hg : e.all Ext.good = true) :
    Go.opt e.isSome none (some <$> readExtension) ⟨encOptExt e ++ r, pos, stop, later⟩ =
      (.ok (e.map fun e => (viewExt e, e.len)), ⟨r, pos + 8 * extLen e, stop, later⟩) := by
  cases e with
  | none => simp [encOptExt, extLen]
  | some e =>
    simp only [Option.isSome_some, Go.opt_true, Go.map_apply, encOptExt, extLen, Option.map_some]
    rw [readExtension_enc e (h e rfl) (by simpa using hg)]

theorem optExt_bad (e : Option Ext) (h : ∀ x ∈ e, x.WF) (hg : e.all Ext.good = false) :
    (Go.opt e.isSome none (some <$> readExtension) ⟨encOptExt e ++ r, pos, stop, later⟩).1 =
      .err .markerNotFound := by
  cases e with
  | none => simp at hg
  | some e =>
    simp only [Option.isSome_some, Go.opt_true, Go.map_apply, encOptExt]
    have := readExtension_bad (r := r) (pos := pos) (stop := stop) (later := later)
      e (h e rfl) (by simpa using hg)
    generalize readExtension _ = x at this ⊢
    obtain ⟨x, y⟩ := x; simp only at this; subst this; rfl

def fixedView (h : Hdr) : Header :=
  { scramblingControl := h.scrambling, priority := h.priority, dataAlignmentIndicator := h.alignment,
    copyright := h.copyright, originalOrCopy := h.original, ptsDtsFlags := h.stamps.flags,
    extensionFlag := h.ext.isSome, headerDataLength := h.dataLen }

theorem flags_lt (t : Stamps) : t.flags < 4 := by cases t <;> simp [Stamps.flags]

theorem readFixed_enc (h : Hdr) (hw : h.WF) :
    readFixed ⟨(bitsOf 2 h.scrambling ++
    [h.priority, h.alignment, h.copyright, h.original] ++ bitsOf 2 h.stamps.flags ++
    [false, false, false, false, false, h.ext.isSome] ++ bitsOf 8 h.dataLen) ++ r, pos, stop, later⟩ =
      (.ok (fixedView h), ⟨r, pos + 22, stop, later⟩) := by
  obtain ⟨h1, h2, h3, h4, h5⟩ := hw
  have := flags_lt h.stamps
  simp only [readFixed, List.append_assoc, List.cons_append, List.nil_append,
    Go.bind_apply, BR.read1_cons, BR.read_bitsOf, Go.pure_apply]
  rw [Nat.mod_eq_of_lt h2, Nat.mod_eq_of_lt this, Nat.mod_eq_of_lt h5]
  rfl

theorem sub32_of_le {a b : Nat} (h : b ≤ a) (ha : a < 2 ^ 32) : sub32 a b = a - b := by
  unfold sub32; omega

theorem bitsOf_cast {n m : Nat} (h : n = m) (k : Nat) : bitsOf k n = bitsOf k m := by rw [h]

theorem extMap_len (e : Option Ext) :
    ((e.map fun e => (viewExt e, e.len)).map (·.2)).getD 0 = extLen e := by
  cases e <;> rfl

/-- The header parser on every encoded header: either the header, or the error of its first defect. -/
theorem readHeader_enc (h : Hdr) (hw : h.WF) (hd : h.defect = none) :
    readHeader ⟨encHdr h ++ r, pos, stop, later⟩ =
      (.ok (viewHdr h, 3 + h.dataLen), ⟨r, pos + 8 * (3 + h.dataLen), stop, later⟩) := by
  have hw' := hw
  obtain ⟨h1, h2, h3, h4, h5⟩ := hw'
  unfold Hdr.defect at hd
  split at hd
  · simp at hd
  rename_i hm
  split at hd
  · simp at hd
  rename_i hs
  split at hd
  · simp at hd
  rename_i he
  split at hd
  · simp at hd
  rename_i hf
  have hm : h.mark = 2 := by simpa using hm
  have hs : h.stamps.good = true := by simpa using hs
  have he : h.ext.all Ext.good = true := by simpa using he
  have hf : h.stuffing.all (· == 255) = true := by simpa using hf
  have hmark := marker_bitsOf (r := (bitsOf 2 h.scrambling ++
    [h.priority, h.alignment, h.copyright, h.original] ++ bitsOf 2 h.stamps.flags ++
    [false, false, false, false, false, h.ext.isSome] ++ bitsOf 8 h.dataLen) ++
      (encStamps h.stamps ++ (encOptExt h.ext ++ (bitsOfBytes h.stuffing ++ r))))
    (pos := pos) (stop := stop) (later := later) 2 2 h.mark h1
  have hfix := readFixed_enc (r := encStamps h.stamps ++ (encOptExt h.ext ++ (bitsOfBytes h.stuffing ++ r)))
    (pos := pos + 2) (stop := stop) (later := later) h hw
  simp only [List.append_assoc] at hmark hfix
  rw [hm, if_pos rfl] at hmark
  have hst := readStamps_enc (r := encOptExt h.ext ++ (bitsOfBytes h.stuffing ++ r))
    (pos := pos + 2 + 22) (stop := stop) (later := later) h.stamps h3 hs
  have hex := optExt_enc (r := bitsOfBytes h.stuffing ++ r)
    (pos := pos + 2 + 22 + 8 * h.stamps.len) (stop := stop) (later := later) h.ext h4 he
  have hfl := readStuffing_enc (r := r) (stop := stop) (later := later) h.stuffing
    (pos + 2 + 22 + 8 * h.stamps.len + 8 * extLen h.ext) hf
  have hsub : sub32 h.dataLen (h.stamps.len +
      ((h.ext.map fun e => (viewExt e, e.len)).map (·.2)).getD 0) = h.stuffing.length := by
    rw [extMap_len, sub32_of_le (by unfold Hdr.dataLen; omega) (by omega)]
    unfold Hdr.dataLen; omega
  have hd : h.dataLen = h.stamps.len + extLen h.ext + h.stuffing.length := rfl
  unfold readHeader
  simp only [encHdr, encFixed, List.append_assoc, hm]
  rw [Go.bind_ok hmark, Go.bind_ok hfix]
  have hu : (fixedView h).unsupported = false := rfl
  rw [show (fixedView h).ptsDtsFlags = h.stamps.flags from rfl, Go.bind_ok hst, hu]
  dsimp only [Go.opt_false]
  rw [Go.bind_ok (Go.pure_apply _ _), show (fixedView h).extensionFlag = h.ext.isSome from rfl,
    Go.bind_ok hex, show (fixedView h).headerDataLength = h.dataLen from rfl, hsub, Go.bind_ok hfl,
    Go.pure_apply, extMap_len]
  have e1 : (3 + (h.stamps.len + extLen h.ext) + h.stuffing.length) % 2 ^ 32 = 3 + h.dataLen := by omega
  have e2 : pos + 2 + 22 + 8 * h.stamps.len + 8 * extLen h.ext + 8 * h.stuffing.length =
    pos + 8 * (3 + h.dataLen) := by omega
  rw [e1, e2]
  have e3 : (h.ext.map fun e => (viewExt e, e.len)).map (·.1) = h.ext.map viewExt := by
    cases h.ext <;> rfl
  rw [e3]
  rfl

theorem bind_fst_err {σ α β : Type} {m : Go σ α} {f : α → Go σ β} {s : σ} {e : Err}
    (h : (m s).1 = .err e) : ((m >>= f) s).1 = .err e := by
  cases hm : m s with
  | mk x y => rw [hm] at h; simp only at h; subst h; rw [Go.bind_err hm]

theorem readHeader_bad (h : Hdr) (hw : h.WF) (e : Err) (hd : h.defect = some e) :
    (readHeader ⟨encHdr h ++ r, pos, stop, later⟩).1 = .err e := by
  have hw' := hw
  obtain ⟨h1, h2, h3, h4, h5⟩ := hw'
  have hmark := marker_bitsOf (r := (bitsOf 2 h.scrambling ++
    [h.priority, h.alignment, h.copyright, h.original] ++ bitsOf 2 h.stamps.flags ++
    [false, false, false, false, false, h.ext.isSome] ++ bitsOf 8 h.dataLen) ++
      (encStamps h.stamps ++ (encOptExt h.ext ++ (bitsOfBytes h.stuffing ++ r))))
    (pos := pos) (stop := stop) (later := later) 2 2 h.mark h1
  have hfix := readFixed_enc (r := encStamps h.stamps ++ (encOptExt h.ext ++ (bitsOfBytes h.stuffing ++ r)))
    (pos := pos + 2) (stop := stop) (later := later) h hw
  simp only [List.append_assoc] at hmark hfix
  unfold Hdr.defect at hd
  unfold readHeader
  simp only [encHdr, encFixed, List.append_assoc]
  split at hd
  · rename_i hm
    obtain rfl := Option.some.inj hd
    rw [if_neg hm] at hmark
    rw [Go.bind_err hmark]
  rename_i hm
  have hm : h.mark = 2 := by simpa using hm
  rw [if_pos hm] at hmark
  rw [Go.bind_ok hmark, Go.bind_ok hfix]
  have hu : (fixedView h).unsupported = false := rfl
  rw [show (fixedView h).ptsDtsFlags = h.stamps.flags from rfl, hu]
  split at hd
  · rename_i hs
    obtain rfl := Option.some.inj hd
    exact bind_fst_err (readStamps_bad h.stamps h3 hs)
  rename_i hs
  have hs : h.stamps.good = true := by simpa using hs
  rw [Go.bind_ok (readStamps_enc h.stamps h3 hs)]
  dsimp only [Go.opt_false]
  rw [Go.bind_ok (Go.pure_apply _ _), show (fixedView h).extensionFlag = h.ext.isSome from rfl]
  split at hd
  · rename_i he
    obtain rfl := Option.some.inj hd
    exact bind_fst_err (optExt_bad h.ext h4 he)
  rename_i he
  have he : h.ext.all Ext.good = true := by simpa using he
  have hsub : sub32 h.dataLen (h.stamps.len +
      ((h.ext.map fun e => (viewExt e, e.len)).map (·.2)).getD 0) = h.stuffing.length := by
    rw [extMap_len, sub32_of_le (by unfold Hdr.dataLen; omega) (by omega)]
    unfold Hdr.dataLen; omega
  rw [Go.bind_ok (optExt_enc h.ext h4 he), show (fixedView h).headerDataLength = h.dataLen from rfl, hsub]
  split at hd
  · rename_i hf
    obtain rfl := Option.some.inj hd
    exact bind_fst_err (readStuffing_bad h.stuffing _ hf)
  · simp at hd

/-! ### packets -/

theorem lift_apply {α : Type} (m : Go BR α) (p : Packet) (b : BR) :
    St.lift m ⟨p, b⟩ = ((m b).1, ⟨p, (m b).2⟩) := rfl

theorem prefix24_enc :
    prefix24 ⟨bitsOf 24 1 ++ r, pos, stop, later⟩ = (.ok (), ⟨r, pos + 24, stop, later⟩) := by
  simp [prefix24, Go.bind_apply, Go.ignoreErr]

/-- After the six bytes of the packet start the stream id decides. -/
theorem next_start (p : Packet) (id len : Nat) (hid : id < 256) (hl : len < 65536) :
    Packet.next ⟨p, ⟨encStart id len ++ r, pos, stop, later⟩⟩ =
      Packet.body id len ⟨{ p with streamID := id, packetLength := len }, ⟨r, pos + 48, stop, later⟩⟩ := by
  simp only [Packet.next, encStart, List.append_assoc, Go.bind_apply, lift_apply, prefix24_enc,
    readInto, BR.read_bitsOf]
  rw [Nat.mod_eq_of_lt (show id < 2 ^ 8 from hid), Nat.mod_eq_of_lt (show len < 2 ^ 16 from hl)]

theorem headerInto_enc (p : Packet) (h : Hdr) (hw : h.WF) (hd : h.defect = none) :
    headerInto ⟨p, ⟨encHdr h ++ r, pos, stop, later⟩⟩ =
      (.ok (3 + h.dataLen), ⟨{ p with header := some (viewHdr h) },
        ⟨r, pos + 8 * (3 + h.dataLen), stop, later⟩⟩) := by
  simp [headerInto, readHeader_enc h hw hd]

theorem boundedPayload_enc (p : Packet) (d : List UInt8) :
    boundedPayload d.length ⟨p, ⟨bitsOfBytes d ++ r, pos, stop, later⟩⟩ =
      (.ok (), ⟨{ p with payload := d }, ⟨r, pos + 8 * d.length, stop, later⟩⟩) := by
  simp [boundedPayload, BR.readFull_bytes rfl]

/-- Parsing an encoded packet. -/
theorem next_packet (p : Packet) (id : Nat) (h : Hdr) (d : List UInt8) (hid : id < 256)
    (hh : hasPESHeader id = true) (hw : h.WF) (hd : h.defect = none)
    (hl : 3 + h.dataLen + d.length < 65536) :
    Packet.next ⟨p, ⟨encPacket id h d ++ r, pos, stop, later⟩⟩ =
      (.ok (), ⟨⟨id, 3 + h.dataLen + d.length, some (viewHdr h), d⟩,
        ⟨r, pos + 8 * (9 + h.dataLen + d.length), stop, later⟩⟩) := by
  simp only [encPacket, List.append_assoc]
  rw [next_start p id _ hid hl]
  have h0 : 3 + h.dataLen + d.length > 0 := by omega
  simp only [Packet.body, hh, Go.ite_apply, ↓reduceIte, Go.bind_apply, headerInto_enc _ h hw hd, h0]
  rw [sub32_of_le (by omega) (by omega), show 3 + h.dataLen + d.length - (3 + h.dataLen) = d.length by omega,
    boundedPayload_enc]
  simp only [Prod.mk.injEq, St.mk.injEq, BR.mk.injEq, true_and, and_true]
  omega

theorem unboundedPayload_enc (p : Packet) (d : List UInt8) (hs : stop = .eof ∨ stop = .eop) :
    unboundedPayload ⟨p, ⟨bitsOfBytes d, pos, stop, later⟩⟩ =
      (.ok (), ⟨{ p with payload := d }, (⟨bitsOfBytes d, pos, stop, later⟩ : BR).failTo⟩) := by
  have : bytesOfBits d.length (bitsOfBytes d) = d := by
    have := bytesOfBits_append d []
    rwa [List.append_nil] at this
  rcases hs with rfl | rfl <;> simp [unboundedPayload, BR.readAll, this]

theorem next_unbounded (p : Packet) (id : Nat) (h : Hdr) (d : List UInt8) (hid : id < 256)
    (hh : hasPESHeader id = true) (hw : h.WF) (hd : h.defect = none)
    (hs : stop = .eof ∨ stop = .eop) :
    Packet.next ⟨p, ⟨encUnbounded id h d, pos, stop, later⟩⟩ =
      (.ok (), ⟨⟨id, 0, some (viewHdr h), d⟩,
        (⟨encUnbounded id h d, pos, stop, later⟩ : BR).failTo⟩) := by
  simp only [encUnbounded, List.append_assoc]
  rw [next_start p id _ hid (by decide)]
  simp only [Packet.body, hh, Go.ite_apply, ↓reduceIte, Go.bind_apply, headerInto_enc _ h hw hd,
    show ¬ (0 > 0) by decide, if_false, unboundedPayload_enc _ d hs, Prod.mk.injEq, true_and,
    St.mk.injEq]
  have hlen : (encHdr h).length = 8 * (3 + h.dataLen) := by
    have := readHeader_enc (r := []) (pos := 0) (stop := .eof) (later := []) h hw hd
    obtain ⟨l, t, e⟩ : ∃ l s', BR.Took ⟨encHdr h ++ [], 0, .eof, []⟩ l s' := ⟨[], _, BR.Took.refl _⟩
    have e1 : (encStamps h.stamps).length = 8 * h.stamps.len := by
      cases h.stamps <;> simp [encStamps, Stamps.len, length_encStamp]
    have e2 : (encOptExt h.ext).length = 8 * extLen h.ext := by
      have h4 := hw.2.2.2.1
      cases he : h.ext with
      | none => rfl
      | some x =>
        have hx := h4 x (by rw [he]; rfl)
        obtain ⟨pv, rs, ps⟩ := x
        rcases pv with _ | pv <;> rcases ps with _ | ⟨m, a, b⟩ <;>
          simp [encOptExt, encExt, extLen, Ext.len, encPriv, encPStd]
        · have := hx.1 pv rfl; simp [this]
        · have := hx.1 pv rfl; simp [this]
    simp only [encHdr, encFixed, List.length_append, length_bitsOf, length_bitsOfBytes, e1, e2,
      List.length_cons, List.length_nil, Hdr.dataLen]
    omega
  rcases later with _ | ⟨⟨b, e⟩, l⟩ <;>
    simp [BR.failTo, hlen, encStart] <;> omega

theorem next_padding (p : Packet) (d : List UInt8) (hl : d.length < 65536) :
    Packet.next ⟨p, ⟨encPadding d ++ r, pos, stop, later⟩⟩ =
      (.ok (), ⟨{ p with streamID := 0xbe, packetLength := d.length },
        ⟨r, pos + 8 * (6 + d.length), stop, later⟩⟩) := by
  simp only [encPadding, List.append_assoc]
  rw [next_start p _ _ (by decide) hl]
  simp only [Packet.body, Go.ite_apply, show hasPESHeader 0xbe = false from rfl, Bool.false_eq_true, if_false,
    ↓reduceIte, Go.bind_apply, lift_apply, readExact_bytes rfl, Go.pure_apply, Prod.mk.injEq, true_and,
    St.mk.injEq, BR.mk.injEq, and_true]
  omega

end
end Mpeg.PES
