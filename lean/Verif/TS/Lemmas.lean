/-
Forward execution of the packet parser on encoded packets.
-/
import Verif.TS.View
set_option linter.all false
namespace Mpeg.TS
open Spec

section
variable {r : List Bool} {pos : Nat} {stop : Err} {later : List (List Bool × Err)}

theorem readFullUE_bytes {n : Nat} {bs : List UInt8} (h : bs.length = n) :
    readFullUE n ⟨bitsOfBytes bs ++ r, pos, stop, later⟩ =
      (.ok bs, ⟨r, pos + 8 * n, stop, later⟩) := by
  simp [readFullUE, Go.bind_apply, BR.readFull_bytes h]

theorem ignoreErr_ok {σ α : Type} {m : Go σ α} {s s' : σ} {a : α} (h : m s = (.ok a, s')) :
    Go.ignoreErr m s = (.ok (), s') := by simp [Go.ignoreErr, h]

@[simp] theorem opt_decide_false {σ α : Type} (d : α) (m : Go σ α) {c : Prop} [Decidable c] (h : ¬ c) :
    Go.opt (decide c) d m = pure d := by simp [h]

theorem readPcr_enc (c : Clock) (h : c.WF) :
    readPcr ⟨encClock c ++ r, pos, stop, later⟩ =
      (.ok (c.base * 300 + c.ext), ⟨r, pos + 48, stop, later⟩) := by
  obtain ⟨h1, h2⟩ := h
  simp only [readPcr, encClock, List.append_assoc, Go.bind_apply, BR.read_bitsOf, Go.pure_apply]
  rw [Nat.mod_eq_of_lt h1, Nat.mod_eq_of_lt h2, Nat.mod_eq_of_lt (by omega)]

theorem optPcr_enc (c : Option Clock) (h : ∀ x, c = some x → x.WF) (n : Nat) (hn : optLen 6 c ≤ n) :
    Go.opt (decide (n ≥ 6) && c.isSome) 0 readPcr ⟨encOpt encClock c ++ r, pos, stop, later⟩ =
      (.ok (viewClock c), ⟨r, pos + 8 * optLen 6 c, stop, later⟩) := by
  cases c with
  | none => simp [encOpt, optLen, viewClock]
  | some c =>
    have hn' : 6 ≤ n := by simpa [optLen] using hn
    simp [encOpt, optLen, viewClock, hn', readPcr_enc c (h c rfl)]

theorem optSplice_enc (c : Option UInt8) (n : Nat) (hn : optLen 1 c ≤ n) :
    Go.opt (decide (n ≥ 1) && c.isSome) 0 (BR.read 8)
      ⟨encOpt (fun b : UInt8 => bitsOf 8 b.toNat) c ++ r, pos, stop, later⟩ =
      (.ok ((c.map UInt8.toNat).getD 0), ⟨r, pos + 8 * optLen 1 c, stop, later⟩) := by
  cases c with
  | none => simp [encOpt, optLen]
  | some c =>
    have hn' : 1 ≤ n := by simpa [optLen] using hn
    have := c.toNat_lt
    simp [encOpt, optLen, hn']

def privLen : Option (List UInt8) → Nat
  | none => 0
  | some d => 1 + d.length

theorem optPriv_enc (c : Option (List UInt8)) (n : Nat) (hn : privLen c ≤ n) (hn' : n < 256) :
    Go.opt (decide (n ≥ 1) && c.isSome) none (some <$> newTransportPrivateData)
      ⟨encPriv c ++ r, pos, stop, later⟩ =
      (.ok (c.map fun d => (⟨d.length, d⟩, d.length)), ⟨r, pos + 8 * privLen c, stop, later⟩) := by
  cases c with
  | none => simp [encPriv, privLen]
  | some d =>
    have hn' : 1 ≤ n := by simp [privLen] at hn; omega
    have hd : d.length < 2 ^ 8 := by simp [privLen] at hn; omega
    simp only [encPriv, privLen, hn', ge_iff_le, decide_true, Option.isSome_some, Bool.and_self,
      Go.opt_true, Go.map_apply, newTransportPrivateData, Go.bind_apply, List.append_assoc,
      BR.read_bitsOf, Nat.mod_eq_of_lt hd]
    by_cases h0 : d.length = 0
    · have : d = [] := List.length_eq_zero_iff.mp h0
      subst this; simp
    · have h0' : d.length > 0 := by omega
      simp only [h0', decide_true, Go.opt_true, readFullUE_bytes rfl, Go.pure_apply]
      simp; omega

theorem extSplice_enc {t d : Nat} {m1 m2 m3 : Bool} (ht : t < 16) (hd : d < 2 ^ 33) :
    extSplice true ⟨encSplice (some (t, d, m1, m2, m3)) ++ r, pos, stop, later⟩ =
      (.ok (t, d), ⟨m3 :: r, pos + 39, stop, later⟩) := by
  simp only [extSplice, Go.opt_true, encSplice, List.append_assoc, Go.bind_apply, BR.read_bitsOf,
    List.cons_append, List.nil_append, Go.pure_apply]
  have s1 : ∀ (b : Bool) (l : List Bool) (p : Nat), Go.ignoreErr (BR.skip 1) ⟨b :: l, p, stop, later⟩
      = (.ok (), ⟨l, p + 1, stop, later⟩) := fun b l p =>
    ignoreErr_ok (BR.skip_of_length (l := [b]) rfl)
  simp only [s1, BR.read_bitsOf, Prod.mk.injEq, Res.ok.injEq, BR.mk.injEq, and_true, true_and]
  omega

theorem extFlags_enc (a b c : Bool) (n : Nat) :
    extFlags true ⟨a :: b :: c :: (bitsOf 5 n ++ r), pos, stop, later⟩ =
      (.ok (a, b, c), ⟨r, pos + 8, stop, later⟩) := by
  simp [extFlags, Go.bind_apply, Go.ignoreErr]

theorem extLTW_enc (l : Option (Bool × Nat)) (h : ∀ v o, l = some (v, o) → o < 2 ^ 15) (n : Nat)
    (hn : (if l.isSome then 2 else 0) ≤ n) :
    extLTW (decide (n ≥ 2) && l.isSome) ⟨encLtw l ++ r, pos, stop, later⟩ =
      (.ok (l.getD (false, 0)),
        ⟨r, pos + 8 * (if l.isSome then 2 else 0), stop, later⟩) := by
  rcases l with _ | ⟨v, o⟩
  · simp [extLTW, encLtw]
  · have hn' : 2 ≤ n := by simpa using hn
    have := h v o rfl
    simp [extLTW, encLtw, hn', Go.bind_apply]
    omega

theorem extPiecewise_enc (l : Option (Nat × Nat)) (h : ∀ v o, l = some (v, o) → o < 2 ^ 22) (n : Nat)
    (hn : (if l.isSome then 3 else 0) ≤ n) :
    extPiecewise (decide (n ≥ 3) && l.isSome) ⟨encPiecewise l ++ r, pos, stop, later⟩ =
      (.ok ((l.map (·.2)).getD 0),
        ⟨r, pos + 8 * (if l.isSome then 3 else 0), stop, later⟩) := by
  rcases l with _ | ⟨v, o⟩
  · simp [extPiecewise, encPiecewise]
  · have hn' : 3 ≤ n := by simpa using hn
    have := h v o rfl
    simp [extPiecewise, encPiecewise, hn', Go.bind_apply, Go.ignoreErr]
    omega

/-- The extension parser on an encoded extension: all fields are right; the last marker bit of
the seamless splice data and the reserved bytes stay unread. -/
theorem newAdaptationExt_enc (e : Ext) (h : e.WF) (hl : e.len < 256) :
    newAdaptationExt ⟨encExt e ++ r, pos, stop, later⟩ =
      (.ok (viewExt e, e.len),
        ⟨(match e.splice with | some (_, _, _, _, m3) => [m3] | none => []) ++
            (bitsOfBytes e.reserved ++ r),
          pos + 8 * (1 + e.len) - 8 * e.reserved.length - (if e.splice.isSome then 1 else 0),
          stop, later⟩) := by
  rcases e with ⟨l, p, s, r5, rs⟩
  obtain ⟨h1, h2, h3⟩ := h
  simp only at h1 h2 h3
  have hlen : Ext.len ⟨l, p, s, r5, rs⟩ = 1 + (if l.isSome then 2 else 0) +
    (if p.isSome then 3 else 0) + (if s.isSome then 5 else 0) + rs.length := rfl
  rw [hlen] at hl ⊢
  generalize hA : (if l.isSome then 2 else 0) = A at *
  generalize hB : (if p.isSome then 3 else 0) = B at *
  generalize hC : (if s.isSome then 5 else 0) = C at *
  have hl' : 1 + A + B + C + rs.length < 2 ^ 8 := hl
  simp only [newAdaptationExt, encExt, hlen, List.append_assoc, Go.bind_apply, BR.read_bitsOf,
    List.cons_append, hA, hB, hC, Nat.mod_eq_of_lt hl']
  have c1 : 1 ≤ 1 + A + B + C + rs.length := by omega
  simp only [ge_iff_le, c1, decide_true, extFlags_enc, if_true]
  have e1 : 1 + A + B + C + rs.length - 1 = A + B + C + rs.length := by omega
  rw [e1]
  rw [extLTW_enc l h1 _ (by rw [hA]; omega)]
  simp only [hA]
  have e2 : (if (decide (2 ≤ A + B + C + rs.length) && l.isSome) = true then
      A + B + C + rs.length - 2 else A + B + C + rs.length) = B + C + rs.length := by
    cases l with
    | none => simp at hA ⊢; omega
    | some l => simp at hA ⊢; split <;> omega
  rw [e2]
  rw [extPiecewise_enc p h2 _ (by rw [hB]; omega)]
  simp only [hB]
  have e3 : (if (decide (3 ≤ B + C + rs.length) && p.isSome) = true then
      B + C + rs.length - 3 else B + C + rs.length) = C + rs.length := by
    cases p with
    | none => simp at hB ⊢; omega
    | some l => simp at hB ⊢; split <;> omega
  rw [e3]
  rcases s with _ | ⟨t, d, m1, m2, m3⟩
  · simp at hC
    simp [extSplice, encSplice, viewExt, hlen, hA, hB, ← hC]
    refine ⟨⟨?_, ?_, ?_⟩, by omega⟩ <;> cases l <;> cases p <;> rfl
  · simp at hC
    obtain ⟨ht, hd⟩ := h3 t d _ rfl
    have : 5 ≤ C + rs.length := by omega
    simp only [this, decide_true, Bool.and_self, Option.isSome_some, extSplice_enc ht hd]
    simp [viewExt, hlen, hA, hB, ← hC]
    refine ⟨⟨?_, ?_, ?_⟩, by omega⟩ <;> cases l <;> cases p <;> rfl

def extLen : Option Ext → Nat
  | none => 0
  | some e => 1 + e.len

theorem optExt_enc (c : Option Ext) (hw : ∀ e, c = some e → e.WF) (hp : ∀ e, c = some e → e.Plain)
    (n : Nat) (hn : extLen c ≤ n) (hn' : n < 256) :
    Go.opt (decide (n ≥ 2) && c.isSome) none (some <$> newAdaptationExt)
      ⟨encOpt encExt c ++ r, pos, stop, later⟩ =
      (.ok (c.map fun e => (viewExt e, e.len)), ⟨r, pos + 8 * extLen c, stop, later⟩) := by
  cases c with
  | none => simp [encOpt, extLen]
  | some e =>
    simp only [extLen] at hn
    have h2 : 2 ≤ n := by unfold Ext.len at hn; omega
    obtain ⟨p1, p2⟩ := hp e rfl
    have := @newAdaptationExt_enc r pos stop later e (hw e rfl) (by omega)
    simp only [encOpt, ge_iff_le, h2, decide_true, Option.isSome_some, Bool.and_self, Go.opt_true,
      Go.map_apply, this, p1, p2]
    simp [extLen]

theorem sub32_le {a b : Nat} (h : b ≤ a) (ha : a < 2 ^ 32) : sub32 a b = a - b := by
  unfold sub32; omega

theorem optJunk_enc (bs : List UInt8) :
    Go.opt (decide (bs.length > 0)) [] (readFullUE bs.length) ⟨bitsOfBytes bs ++ r, pos, stop, later⟩ =
      (.ok bs, ⟨r, pos + 8 * bs.length, stop, later⟩) := by
  by_cases h0 : bs.length = 0
  · have : bs = [] := List.length_eq_zero_iff.mp h0
    subst this; simp
  · have h0' : bs.length > 0 := by omega
    simp only [h0', decide_true, Go.opt_true, readFullUE_bytes rfl]

theorem afFlags_enc (b0 b1 b2 b3 b4 b5 b6 b7 : Bool) :
    afFlags true ⟨b0 :: b1 :: b2 :: b3 :: b4 :: b5 :: b6 :: b7 :: r, pos, stop, later⟩ =
      (.ok { discontinuityIndicator := b0, randomAccessIndicator := b1,
             elementaryStreamPriorityIndicator := b2, pcrFlag := b3, opcrFlag := b4,
             splicingPointFlag := b5, transportPrivateDataFlag := b6,
             adaptationFieldExtensionFlag := b7 }, ⟨r, pos + 8, stop, later⟩) := by
  simp [afFlags, Go.bind_apply]

theorem remain_step {n k m : Nat} {b : Bool} (hm : m = if b then k else 0) :
    (if (decide (n + m ≥ k) && b) = true then n + m - k else n + m) = n := by
  cases b <;> simp at hm <;> subst hm <;> simp

theorem newAdaptationField_enc (a : AF) (hw : a.Fields) (hp : a.Plain) (w4 : a.len < 256) :
    newAdaptationField ⟨encAF a ++ r, pos, stop, later⟩ =
      (.ok (viewAF a, a.len), ⟨r, pos + 8 * (1 + a.len), stop, later⟩) := by
  rcases a with ⟨d, ra, ep, pcr, opcr, sc, priv, ext, st⟩
  obtain ⟨w1, w2, w3⟩ := hw
  simp only [AF.Plain] at w1 w2 w3 w4 hp
  have hlen : AF.len ⟨d, ra, ep, pcr, opcr, sc, priv, ext, st⟩ =
      st.length + extLen ext + privLen priv + optLen 1 sc + optLen 6 opcr + optLen 6 pcr + 1 := by
    cases priv <;> cases ext <;> simp [AF.len, extLen, privLen] <;> omega
  simp only [encAF]
  rw [hlen] at w4 ⊢
  have hl' : st.length + extLen ext + privLen priv + optLen 1 sc + optLen 6 opcr + optLen 6 pcr + 1 < 2 ^ 8 := by
    omega
  simp only [newAdaptationField, List.append_assoc, Go.bind_apply, BR.read_bitsOf,
    List.cons_append, Nat.mod_eq_of_lt hl']
  have c1 : 1 ≤ st.length + extLen ext + privLen priv + optLen 1 sc + optLen 6 opcr + optLen 6 pcr + 1 := by omega
  simp only [ge_iff_le, c1, decide_true, afFlags_enc, if_true, Nat.add_sub_cancel]
  have o1 := fun pos n h => @optPcr_enc (encOpt encClock opcr ++
      (encOpt (fun b : UInt8 => bitsOf 8 b.toNat) sc ++
      (encPriv priv ++ (encOpt encExt ext ++ (bitsOfBytes st ++ r))))) pos stop later pcr w1 n h
  have o2 := fun pos n h => @optPcr_enc (
      (encOpt (fun b : UInt8 => bitsOf 8 b.toNat) sc ++
      (encPriv priv ++ (encOpt encExt ext ++ (bitsOfBytes st ++ r))))) pos stop later opcr w2 n h
  have o3 := fun pos n h => @optSplice_enc (
      (encPriv priv ++ (encOpt encExt ext ++ (bitsOfBytes st ++ r)))) pos stop later sc n h
  have o4 := fun pos n h h' => @optPriv_enc (
      (encOpt encExt ext ++ (bitsOfBytes st ++ r))) pos stop later priv n h h'
  have o5 := fun pos n h h' => @optExt_enc (
      (bitsOfBytes st ++ r)) pos stop later ext w3 hp n h h'
  have r1 : ∀ n, (if (decide (6 ≤ n + optLen 6 pcr) && pcr.isSome) = true then
      n + optLen 6 pcr - 6 else n + optLen 6 pcr) = n := fun n => remain_step rfl
  have r2 : ∀ n, (if (decide (6 ≤ n + optLen 6 opcr) && opcr.isSome) = true then
      n + optLen 6 opcr - 6 else n + optLen 6 opcr) = n := fun n => remain_step rfl
  have r3 : ∀ n, (if (decide (1 ≤ n + optLen 1 sc) && sc.isSome) = true then
      n + optLen 1 sc - 1 else n + optLen 1 sc) = n := fun n => remain_step rfl
  have r4 : ∀ n, n < 256 → afterPart (n + privLen priv)
      (priv.map fun d => ((⟨d.length, d⟩ : TransportPrivateData), d.length)) = n := by
    intro n hn
    cases priv with
    | none => simp [privLen, afterPart]
    | some p =>
      have hp : p.length < 256 := by simp [privLen] at w4; omega
      simp only [Option.map_some, privLen, afterPart]; rw [sub32_le (by omega) (by omega)]; omega
  have r5 : ∀ n, n < 256 → afterPart (n + extLen ext)
      (ext.map fun e => (viewExt e, e.len)) = n := by
    intro n hn
    cases ext with
    | none => simp [extLen, afterPart]
    | some p =>
      have hp : p.len < 256 := by simp [extLen] at w4; omega
      simp only [Option.map_some, extLen, afterPart]; rw [sub32_le (by omega) (by omega)]; omega
  have o1' := fun pos n => o1 pos (n + optLen 6 pcr) (by omega)
  have o2' := fun pos n => o2 pos (n + optLen 6 opcr) (by omega)
  have o3' := fun pos n => o3 pos (n + optLen 1 sc) (by omega)
  simp only [ge_iff_le] at o1' o2' o3'
  simp only [o1', r1, o2', r2, o3', r3]
  have o4' := fun pos => o4 pos (st.length + extLen ext + privLen priv) (by omega) (by omega)
  have o5' := fun pos => o5 pos (st.length + extLen ext) (by omega) (by omega)
  simp only [ge_iff_le] at o4' o5'
  simp only [o4', r4 (st.length + extLen ext) (by omega), o5', r5 st.length (by omega), optJunk_enc,
    Go.pure_apply]
  simp [viewAF, hlen]
  exact ⟨⟨rfl, rfl⟩, by omega⟩

theorem newAdaptationField_enc0 :
    newAdaptationField ⟨bitsOf 8 0 ++ r, pos, stop, later⟩ =
      (.ok ({}, 0), ⟨r, pos + 8, stop, later⟩) := by
  simp [newAdaptationField, Go.bind_apply, afFlags, afterPart]

theorem newAdaptationField_enc? (a : Option AF) (hw : wf? a) (hp : plain? a) :
    newAdaptationField ⟨encAF? a ++ r, pos, stop, later⟩ =
      (.ok (viewAF? a, len? a), ⟨r, pos + 8 * (1 + len? a), stop, later⟩) := by
  cases a with
  | none => simpa [viewAF?, len?, encAF?] using newAdaptationField_enc0
  | some a => exact newAdaptationField_enc a hw.1 hp (by have := hw.2; omega)

theorem readPayload_enc (p : Packet) {size : Nat} {d : List UInt8} (h : d.length = size)
    (hs : size ≤ 184) :
    readPayload size ⟨p, ⟨bitsOfBytes d ++ r, pos, stop, later⟩⟩ =
      (.ok (), ⟨{ p with payloadLen := size, buf := d ++ p.buf.drop size },
        ⟨r, pos + 8 * size, stop, later⟩⟩) := by
  have : ¬ size > maxPayloadSize := by simp [maxPayloadSize]; omega
  simp [readPayload, this, BR.readFull_bytes h, h]

/-- The parser after the sync search, on an aligned reader showing a sync byte. -/
theorem sync_enc (h8 : pos % 8 = 0) :
    sync ⟨bitsOf 8 0x47 ++ r, pos, stop, later⟩ = (.ok (), ⟨r, pos + 8, stop, later⟩) := by
  simp [sync, isAligned, BR.isAligned, h8, Go.bind_apply, syncByte]

/-- `Packet.Next` after the sync byte has been consumed (ts/packet.go:78-139). -/
def afterSync : Go St Unit := do
  readInto BR.read1 false (fun v p => { p with transportErrorIndicator := v })
  readInto BR.read1 false (fun v p => { p with payloadUnitStartIndicator := v })
  readInto BR.read1 false (fun v p => { p with transportPriority := v })
  readInto (BR.read 13) 0 (fun v p => { p with pid := v })
  readInto (BR.read 2) 0 (fun v p => { p with transportScramblingControl := v })
  let afc ← St.lift (BR.read 2)
  Go.modify (fun s => { s with pkt := { s.pkt with adaptationFieldControl := afc } })
  readInto (BR.read 4) 0 (fun v p => { p with continuityCounter := v })
  let size ← Go.opt (afc == 2 || afc == 3) maxPayloadSize (do
    let len ← readAdaptation
    pure (sub32 maxPayloadSize (len + 1)))
  Go.opt (afc == 1 || afc == 3) () (readPayload size)

theorem next_eq : Packet.next = (do St.lift sync; afterSync) := rfl

/-- header part of `encPkt` without the sync byte -/
def hdrTail (h : Hdr) (afc : Nat) : List Bool :=
  h.tei :: h.pusi :: h.prio :: (bitsOf 13 h.pid ++ (bitsOf 2 h.tsc ++
    (bitsOf 2 afc ++ bitsOf 4 h.cc)))

/-- The packet value produced from `p0`. -/
def result (p0 : Packet) (h : Hdr) (b : Body) : Packet :=
  let q : Packet := { p0 with
    transportErrorIndicator := h.tei, payloadUnitStartIndicator := h.pusi,
    transportPriority := h.prio, pid := h.pid, transportScramblingControl := h.tsc,
    adaptationFieldControl := b.afc, continuityCounter := h.cc }
  match b with
  | .payload d => { q with payloadLen := d.length, buf := d ++ p0.buf.drop d.length }
  | .af a => { q with adaptationField := some (viewAF? a) }
  | .afPayload a d => { q with adaptationField := some (viewAF? a), payloadLen := d.length,
                               buf := d ++ p0.buf.drop d.length }

theorem afterSync_enc (p0 : Packet) (h : Hdr) (b : Body) (hw : h.WF) (hb : b.WF) (hp : b.Plain) :
    afterSync ⟨p0, ⟨hdrTail h b.afc ++ (encBody b ++ r), pos, stop, later⟩⟩ =
      (.ok (), ⟨result p0 h b, ⟨r, pos + 187 * 8, stop, later⟩⟩) := by
  obtain ⟨w1, w2, w3⟩ := hw
  have w2' : h.tsc < 2 ^ 2 := w2
  have w3' : h.cc < 2 ^ 4 := w3
  have hafc : b.afc < 2 ^ 2 := by cases b <;> simp [Body.afc]
  simp only [afterSync, hdrTail, List.cons_append, List.append_assoc, Go.bind_apply, readInto,
    BR.read1_cons, BR.read_bitsOf, St.lift, Go.modify_apply, Nat.mod_eq_of_lt w1,
    Nat.mod_eq_of_lt w2', Nat.mod_eq_of_lt w3', Nat.mod_eq_of_lt hafc]
  cases b with
  | payload d =>
    simp only [Body.WF] at hb
    simp [Body.afc, encBody, readPayload_enc _ (show d.length = maxPayloadSize from hb)
      (by simp [maxPayloadSize]), result]
    simp [maxPayloadSize, hb]
  | af a =>
    simp only [Body.WF] at hb
    simp [Body.afc, encBody, readAdaptation, Go.bind_apply, newAdaptationField_enc? a hb.1 hp, result,
      hb.2]
  | afPayload a d =>
    simp only [Body.WF] at hb
    have e : sub32 maxPayloadSize (len? a + 1) = d.length := by
      rw [sub32_le (by simp [maxPayloadSize]; omega) (by simp [maxPayloadSize])]
      simp [maxPayloadSize]; omega
    simp [Body.afc, encBody, readAdaptation, Go.bind_apply, newAdaptationField_enc? a hb.1 hp, result, e,
      readPayload_enc _ (show d.length = d.length from rfl) (show d.length ≤ 184 by omega)]
    omega

theorem next_enc (p0 : Packet) (p : Pkt) (hw : p.WF) (hp : p.body.Plain) (h8 : pos % 8 = 0) :
    Packet.next ⟨p0, ⟨encPkt p ++ r, pos, stop, later⟩⟩ =
      (.ok (), ⟨result p0 p.hdr p.body, ⟨r, pos + 188 * 8, stop, later⟩⟩) := by
  have e : encPkt p ++ r = bitsOf 8 0x47 ++ (hdrTail p.hdr p.body.afc ++ (encBody p.body ++ r)) := by
    simp [encPkt, encHdr, hdrTail]
  rw [next_eq, e]
  simp only [Go.bind_apply, St.lift, sync_enc h8, afterSync_enc p0 p.hdr p.body hw.1 hw.2 hp]

theorem payload_app (d l : List UInt8) : (d ++ l).take d.length = d := by simp

theorem result_hdr (p0 : Packet) (h : Hdr) (b : Body) : HdrIs (result p0 h b) h b.afc := by
  cases b <;> simp [result, HdrIs]
theorem result_body (p0 : Packet) (h : Hdr) (b : Body) : AfterBody p0 (result p0 h b) b := by
  cases b <;> simp [result, AfterBody, Packet.payload]

end
end Mpeg.TS
