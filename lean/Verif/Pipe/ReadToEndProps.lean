/-
Property theorem C112: reading the stream readers to their end (`ioutil.ReadAll`, `io.Copy`).
-/
import Verif.Base.ReadToEnd
import Verif.PS.StallLemmas
import Verif.PS.Props
import Verif.PES.Props
import Verif.TS.ReaderProps
set_option linter.all false
namespace Mpeg

/-! ### one lemma per kind of reader: the Reads that are made add up to what is delivered -/

section
variable {σ : Type} {read : Nat → Go σ (List UInt8 × Option Err)} {sz : Nat → Nat}

theorem readToEnd_more {n i : Nat} {r r' r'' : σ} {d c : List UInt8} {x : Option Err}
    (h : read (sz i) r = (.ok (d, none), r')) (h' : readToEnd read sz n (i + 1) r' = (.ok (c, x), r'')) :
    readToEnd read sz (n + 1) i r = (.ok (d ++ c, x), r'') := by
  rw [readToEnd, Go.bind_ok h]
  simp only
  rw [Go.bind_ok h']
  rfl

theorem readToEnd_last {n i : Nat} {r r' : σ} {d : List UInt8} {e : Err}
    (h : read (sz i) r = (.ok (d, some e), r')) :
    readToEnd read sz (n + 1) i r = (.ok (d, told e), r') := by
  rw [readToEnd, Go.bind_ok h]
  rfl

/-- Successive Reads up to the first error. -/
def upTo (read : Nat → Go σ (List UInt8 × Option Err)) : List Nat → Go σ (List (List UInt8 × Option Err))
  | [] => pure []
  | n :: ns => do
    let o ← read n
    if o.2.isSome then pure [o]
    else do
      let os ← upTo read ns
      pure (o :: os)

/-- Successive Reads up to the first error other than `EOP`. -/
def pastEOP (read : Nat → Go σ (List UInt8 × Option Err)) : List Nat → Go σ (List (List UInt8 × Option Err))
  | [] => pure []
  | n :: ns => do
    let o ← read n
    if o.2 = none ∨ o.2 = some .eop then do
      let os ← pastEOP read ns
      pure (o :: os)
    else pure [o]

/-- the results up to the first error -/
def cut : List (List UInt8 × Option Err) → List (List UInt8 × Option Err)
  | [] => []
  | o :: os => if o.2.isSome then [o] else o :: cut os

theorem upTo_of_pastEOP : ∀ (ns : List Nat) (r r' : σ) (outs : List (List UInt8 × Option Err)),
    pastEOP read ns r = (.ok outs, r') → ∃ r'', upTo read ns r = (.ok (cut outs), r'') := by
  intro ns
  induction ns with
  | nil =>
    intro r r' outs h
    simp only [pastEOP, Go.pure_apply, Prod.mk.injEq, Res.ok.injEq] at h
    obtain ⟨rfl, rfl⟩ := h
    exact ⟨r, rfl⟩
  | cons n ns ih =>
    intro r r' outs h
    rw [pastEOP] at h
    obtain ⟨⟨d, x⟩, r1, h1, h2⟩ := Go.bind_eq_ok h
    rw [upTo]
    rw [Go.bind_ok h1]
    cases x with
    | none =>
      simp only [true_or, if_true] at h2
      obtain ⟨os, r2, h3, h4⟩ := Go.bind_eq_ok h2
      simp only [Go.pure_apply, Prod.mk.injEq, Res.ok.injEq] at h4
      obtain ⟨rfl, rfl⟩ := h4
      obtain ⟨r3, h5⟩ := ih r1 _ os h3
      refine ⟨r3, ?_⟩
      simp only [Option.isSome_none, Bool.false_eq_true, if_false]
      rw [Go.bind_ok h5]
      rfl
    | some x =>
      refine ⟨r1, ?_⟩
      have : cut outs = [(d, some x)] := by
        by_cases hx : x = .eop
        · simp only [hx, or_true, if_true] at h2
          obtain ⟨os, r2, h3, h4⟩ := Go.bind_eq_ok h2
          simp only [Go.pure_apply, Prod.mk.injEq, Res.ok.injEq] at h4
          obtain ⟨rfl, rfl⟩ := h4
          simp [cut, hx]
        · have hne : ¬((some x : Option Err) = none ∨ some x = some .eop) := by simp [hx]
          simp only [hne, if_false, Go.pure_apply, Prod.mk.injEq, Res.ok.injEq] at h2
          obtain ⟨rfl, rfl⟩ := h2
          simp [cut]
      simp [this]

/-- If reading with the buffer sizes `sz i, sz (i + 1), …` delivers `c` and then `e`, ReadAll returns them. -/
theorem readToEnd_of_upTo (hsz : ∀ i, 0 < sz i) {e : Err} : ∀ (m k i : Nat) (r r' : σ) (c : List UInt8),
    c.length < m → m ≤ k →
    upTo read ((List.range' i m).map sz) r = (.ok (TS.Spec.deliver c e ((List.range' i m).map sz)), r') →
    ∃ r', readToEnd read sz k i r = (.ok (c, told e), r') := by
  intro m
  induction m with
  | zero => intro k i r r' c hc; omega
  | succ m ih =>
    intro k i r r' c hc hkn hr
    obtain ⟨k, rfl⟩ : ∃ k', k = k' + 1 := ⟨k - 1, by omega⟩
    rw [List.range'_succ, List.map_cons, upTo] at hr
    obtain ⟨⟨d, x⟩, r1, h1, h2⟩ := Go.bind_eq_ok hr
    by_cases hx : sz i ≤ c.length
    · simp only [TS.Spec.deliver, if_pos hx] at h2
      cases x with
      | some x => simp at h2
      | none =>
        simp only [Option.isSome_none, Bool.false_eq_true, if_false] at h2
        obtain ⟨os, r2, h3, h4⟩ := Go.bind_eq_ok h2
        simp only [Go.pure_apply, Prod.mk.injEq, Res.ok.injEq, List.cons.injEq] at h4
        obtain ⟨⟨⟨rfl, _⟩, rfl⟩, rfl⟩ := h4
        obtain ⟨r3, h5⟩ := ih k (i + 1) r1 _ (c.drop (sz i)) (by
          rw [List.length_drop]; have := hsz i; omega) (by omega) h3
        refine ⟨r3, ?_⟩
        have := readToEnd_more h1 h5
        rwa [List.take_append_drop] at this
    · simp only [TS.Spec.deliver, if_neg hx] at h2
      cases x with
      | none =>
        simp only [Option.isSome_none, Bool.false_eq_true, if_false] at h2
        obtain ⟨os, r2, h3, h4⟩ := Go.bind_eq_ok h2
        simp at h4
      | some x =>
        simp only [Option.isSome_some, if_true, Go.pure_apply, Prod.mk.injEq, Res.ok.injEq, List.cons.injEq, and_true,
          Option.some.injEq] at h2
        obtain ⟨⟨rfl, rfl⟩, rfl⟩ := h2
        exact ⟨r1, readToEnd_last h1⟩
end

/-! ### the transport stream readers -/

namespace TS
open Spec

theorem reads_upTo (c : PRCfg) (fuel : Nat) : ∀ ns, PR.reads c fuel ns = upTo (PR.read c fuel) ns
  | [] => rfl
  | n :: ns => by rw [PR.reads, upTo, reads_upTo c fuel ns]

theorem reads_pastEOP (w : Tester) (fuel : Nat) : ∀ ns, PU.reads w fuel ns = pastEOP (PU.read w fuel) ns
  | [] => rfl
  | n :: ns => by rw [PU.reads, pastEOP, reads_pastEOP w fuel ns]

/-- **C112**, payload reader: for every source that does not make `Next` panic (`C11_every_source`), every tester
and every sequence of positive buffer sizes, ReadAll returns, with exactly the payloads of the accepted packets, and
reports the error of the source unless it is `io.EOF`. -/
theorem C112_transport (w : Tester) (br : BR) {ps : List Packet} {e : Err} {s' : St}
    (h : Ends ⟨Packet.new, br⟩ ps e s') (sz : Nat → Nat) (hsz : ∀ i, 0 < sz i) {fuel k : Nat} (hf : ps.length < fuel)
    (hk : (payloads w ps).length < k) :
    ∃ r', readToEnd (PR.read { whre := w } fuel) sz k 0 (PR.new br) = (.ok (payloads w ps, told e), r') := by
  obtain ⟨s1, h1, h2⟩ := h
  have key : ∀ ns, ∃ r', PR.reads { whre := w } fuel ns (PR.new br) = (.ok (deliver (payloads w ps) e ns), r') := by
    intro ns
    cases ns with
    | nil => exact ⟨_, rfl⟩
    | cons n ns =>
      rw [reads_new _ rfl]
      obtain ⟨r', h3, _⟩ := reads_deliver { whre := w } h2 (n :: ns)
        { PR.new br with started := true } ps ⟨rfl, rfl, h1, fun _ _ => rfl⟩ fuel hf
      exact ⟨r', by simpa [content, PR.new] using h3⟩
  obtain ⟨r', h3⟩ := key ((List.range' 0 k).map sz)
  rw [reads_upTo] at h3
  exact readToEnd_of_upTo hsz k k 0 _ _ _ hk (Nat.le_refl _) h3

/-- **C112**, for encoded streams: the payloads of the packets of a PID (which all have to carry one, see C07). -/
theorem C112_pid_stream (k : Nat) (ps : List Pkt) (hps : ∀ p ∈ ps, p.WF ∧ p.body.Plain)
    (hb : ∀ p ∈ ps, p.hdr.pid = k → p.body.hasPayload = true) (sz : Nat → Nat) (hsz : ∀ i, 0 < sz i) {fuel n : Nat}
    (hf : ps.length < fuel)
    (hn : ((ps.filter (fun p => p.hdr.pid == k)).map (fun p => p.body.data)).flatten.length < n) :
    ∃ r', readToEnd (PR.read { whre := isPID k } fuel) sz n 0 (PR.new (BR.ofBits (ps.map encPkt).flatten)) =
      (.ok (((ps.filter (fun p => p.hdr.pid == k)).map (fun p => p.body.data)).flatten, none), r') := by
  have h1 := run_enc (stop := .eof) (later := []) ps Packet.new 0 hps rfl
  have h2 := next_at_end (s := ⟨lastOf Packet.new ps, ⟨[], 0 + 188 * 8 * ps.length, .eof, []⟩⟩) rfl rfl
    (by simp only; omega)
  have hp := observed_payloads (isPID k) (fun h => h.pid == k)
    (by intro p h b; have := result_hdr p h b; simp [isPID, this.2.2.2.1]) ps Packet.new
    (fun p hp hv => hb p hp (by simpa using hv))
  have hl : ∀ (ps : List Pkt) p0, (observed p0 ps).length = ps.length := by
    intro ps
    induction ps with
    | nil => intro; rfl
    | cons p ps ih => intro p0; simp [observed, ih]
  rw [← hp] at hn ⊢
  exact C112_transport (isPID k) (BR.ofBits (ps.map encPkt).flatten) ⟨_, h1, h2⟩ sz hsz (by rw [hl]; exact hf) hn

theorem cut_deliver (e : Err) : ∀ (ns : List Nat) (c : List UInt8), cut (deliver c e ns) = deliver c e ns
  | [], _ => rfl
  | n :: ns, c => by
    by_cases hn : n ≤ c.length
    · simp [deliver, hn, cut, cut_deliver e ns]
    · simp [deliver, hn, cut]

theorem cut_units (e : Err) : ∀ (ns : List Nat) (b : List UInt8) (us : List (List UInt8)),
    cut (deliverUnits e (some b) us ns) = deliver b .eop ns
  | [], _, us => by cases us <;> rfl
  | n :: ns, b, us => by
    by_cases hn : n ≤ b.length
    · simp [deliverUnits, deliver, hn, cut, cut_units e ns]
    · simp [deliverUnits, deliver, hn, cut]

/-- **C112**, payload unit reader: ReadAll stops at the end of the first unit, with that unit and the error `EOP`; if
there is no unit but the last one, it returns nothing and the error of the source. -/
theorem C112_unit (w : Tester) (br : BR) {ps pre : List Packet} {gs : List Group} {e : Err} {s' : St}
    (h : Ends ⟨Packet.new, br⟩ ps e s') (hne : e ≠ .eop) (hs : Split (startOf w) ps pre gs)
    (sz : Nat → Nat) (hsz : ∀ i, 0 < sz i) {fuel k : Nat} (hf : ps.length < fuel)
    (hk : (payloads w ps).length < k) :
    ∃ r', readToEnd (PU.read w fuel) sz k 0 (PU.new br) =
      (match gs with
        | g :: _ :: _ => (.ok (unitBytes w g, some .eop), r')
        | _ => (.ok ([], told e), r')) := by
  obtain ⟨outs, r', h1, h2, _⟩ := C14_units_partial w br h hne hs ((List.range' 0 k).map sz) hf
  rw [reads_pastEOP] at h1
  obtain ⟨r2, h3⟩ := upTo_of_pastEOP _ _ _ _ h1
  obtain ⟨k, rfl⟩ : ∃ k', k = k' + 1 := ⟨k - 1, by omega⟩
  have hnone : gs.dropLast = [] → ∃ r', readToEnd (PU.read w fuel) sz (k + 1) 0 (PU.new br) = (.ok ([], told e), r') := by
    intro hd
    refine readToEnd_of_upTo hsz (k + 1) (k + 1) 0 _ r2 [] (by simp) (Nat.le_refl _) ?_
    rw [h3, h2, hd]
    have := hsz 0
    have h0 : ¬ sz 0 = 0 := by omega
    rw [List.range'_succ, List.map_cons]
    simp [deliverUnits, deliver, cut, h0]
  match gs, hs, h2, hnone with
  | [], _, _, hnone => exact hnone rfl
  | [g], _, _, hnone => exact hnone rfl
  | g :: g' :: gs, hs, h2, _ =>
    have hlen : (unitBytes w g).length ≤ (payloads w ps).length := by
      rw [hs.1]
      simp only [payloads_append, List.map_cons, List.flatten_cons, List.length_append, unitBytes]
      omega
    have hu : told .eop = some .eop := rfl
    rw [← hu]
    refine readToEnd_of_upTo hsz (k + 1) (k + 1) 0 _ r2 _ (by omega) (Nat.le_refl _) ?_
    rw [h3, h2]
    rw [List.range'_succ, List.map_cons, List.dropLast_cons₂, List.map_cons]
    by_cases hn : sz 0 ≤ (unitBytes w g).length
    · simp [deliverUnits, deliver, cut, hn, cut_units]
    · simp [deliverUnits, deliver, cut, hn]

end TS

/-! ### the PES payload reader -/

namespace PES
open Spec

theorem reads_pastEOP (fuel : Nat) : ∀ ns, PR.reads fuel ns = pastEOP (PR.read fuel) ns
  | [] => rfl
  | n :: ns => by rw [PR.reads, pastEOP, reads_pastEOP fuel ns]

theorem cut_parts (e : Err) : ∀ (ns : List Nat) (c : List UInt8) (us : List (List UInt8)),
    cut (deliverParts e c us ns) = TS.Spec.deliver c (if us = [] then e else .eop) ns
  | [], _, us => by cases us <;> rfl
  | n :: ns, c, [] => by
    have := cut_parts e ns (c.drop n) []
    by_cases hn : n ≤ c.length
    · simp_all [deliverParts, TS.Spec.deliver, cut]
    · simp [deliverParts, TS.Spec.deliver, hn, cut]
  | n :: ns, c, u :: us => by
    have := cut_parts e ns (c.drop n) (u :: us)
    by_cases hn : n ≤ c.length
    · simp_all [deliverParts, TS.Spec.deliver, cut]
    · simp [deliverParts, TS.Spec.deliver, hn, cut]

/-- **C112**, PES payload reader: for every source (`C26_every_source`), ReadAll returns the payloads of all packets
up to the first `EOP` or the final error, and reports it unless it is `io.EOF`. -/
theorem C112_pes (br : BR) (ps : List Packet) (pss : List (List Packet)) (e : Err)
    (h : Parts ⟨{}, br⟩ (ps :: pss) e) (sz : Nat → Nat) (hsz : ∀ i, 0 < sz i) {fuel k : Nat}
    (hf : ps.length + total pss < fuel) (hk : (payloads ps).length < k) :
    ∃ r', readToEnd (PR.read fuel) sz k 0 (PR.new br) =
      (.ok (payloads ps, if pss = [] then told e else some .eop), r') := by
  obtain ⟨r', h1⟩ := C26_every_source br ps pss e h ((List.range' 0 k).map sz) fuel hf
  rw [reads_pastEOP] at h1
  obtain ⟨r2, h3⟩ := upTo_of_pastEOP _ _ _ _ h1
  rw [cut_parts] at h3
  obtain ⟨r4, h4⟩ := readToEnd_of_upTo hsz k k 0 _ _ _ hk (Nat.le_refl _) h3
  refine ⟨r4, ?_⟩
  rw [h4]
  cases pss with
  | nil => rfl
  | cons a l => rfl

/-- **C112 (partial)**, for encoded streams (no padding packet after a payload: with one the payload before it is
delivered twice, `C26_false`): the payloads of all packets, and no error. -/
theorem C112_pes_stream_partial (l : List Item) (hw : ∀ i ∈ l, i.WF)
    (hm : ∀ a i b, l = a ++ i :: b → (∃ d, i = .padding d) → a.flatMap Item.payload = [])
    (sz : Nat → Nat) (hsz : ∀ i, 0 < sz i) {fuel k : Nat} (hf : 48 * fuel > 48 + ((l.map Item.enc).flatten).length)
    (hk : (l.flatMap Item.payload).length < k) :
    ∃ r', readToEnd (PR.read fuel) sz k 0 (PR.new (BR.ofBits (l.map Item.enc).flatten)) =
      (.ok (l.flatMap Item.payload, none), r') := by
  obtain ⟨r', h1⟩ := C26_stream_partial l hw hm ((List.range' 0 k).map sz) fuel hf
  rw [reads_pastEOP] at h1
  obtain ⟨r2, h3⟩ := upTo_of_pastEOP _ _ _ _ h1
  rw [TS.cut_deliver] at h3
  exact readToEnd_of_upTo (e := .eof) hsz k k 0 _ _ _ hk (Nat.le_refl _) h3

end PES

/-! ### the pack reader of program streams -/

namespace PS
open Spec

/-- What the caller of a Read sees: the bytes counted, and the error (ps/pack_reader.go:25). -/
def PackReader.seen (n : Nat) : Go PackReader (List UInt8 × Option Err) := do
  let x ← PackReader.read n
  pure (x.stored.take x.count, x.err)

theorem reads_upTo : ∀ ns, PackReader.reads ns = upTo PackReader.seen ns
  | [] => rfl
  | n :: ns => by
    rw [PackReader.reads, upTo, reads_upTo ns]
    funext r
    simp only [PackReader.seen, Go.bind_apply, Go.pure_apply]
    cases PackReader.read n r with
    | mk a r1 =>
      cases a with
      | ok x => cases hx : x.err <;> simp [hx]
      | err e => rfl
      | panic => rfl
      | hang => rfl

/-- **C112**, pack reader: on every well-formed program stream that ends with the end code, ReadAll returns exactly
the payloads and no error. -/
theorem C112_program (ps : List Pack) (hw : ∀ p ∈ ps, p.WF) (hne : ∀ p ∈ ps, p.items ≠ [])
    (tail : List Bool) (stop : Err) (later : List (List Bool × Err)) (sz : Nat → Nat) (hsz : ∀ i, 0 < sz i) {k : Nat}
    (hk : (ps.flatMap Pack.payload).length < k) :
    ∃ r', readToEnd PackReader.seen sz k 0 (PackReader.new ⟨encProgram ps ++ tail, 0, stop, later⟩) =
      (.ok (ps.flatMap Pack.payload, none), r') := by
  obtain ⟨r', h1⟩ := C31_pack_reader_partial ps hw hne tail stop later ((List.range' 0 k).map sz)
  rw [reads_upTo] at h1
  exact readToEnd_of_upTo (e := .eof) hsz k k 0 _ _ _ hk (Nat.le_refl _) h1

/-- Reading `content` with buffers of the given sizes when the reader stalls: the first Read that wants more than is
left, and every later one, reports neither bytes nor an error.  What was left is lost. -/
def Spec.stall : List UInt8 → List Nat → List (List UInt8 × Option Err)
  | _, [] => []
  | c, n :: ns =>
    if n ≤ c.length then (c.take n, none) :: stall (c.drop n) ns
    else ([], none) :: ns.map (fun _ => ([], none))

theorem seen_stuck {b : BR} (h : Stuck b) (n : Nat) :
    ∃ b', Stuck b' ∧ PackReader.seen n ⟨b, []⟩ = (.ok ([], none), ⟨b', []⟩) := by
  obtain ⟨b', h1, h2⟩ := read_stuck h n
  exact ⟨b', h1, by rw [PackReader.seen, Go.bind_ok h2]; rfl⟩

theorem upTo_stuck : ∀ (ns : List Nat) {b : BR}, Stuck b →
    ∃ b', Stuck b' ∧ upTo PackReader.seen ns ⟨b, []⟩ = (.ok (ns.map (fun _ => ([], none))), ⟨b', []⟩)
  | [], b, h => ⟨b, h, rfl⟩
  | n :: ns, b, h => by
    obtain ⟨b1, h1, h2⟩ := seen_stuck h n
    obtain ⟨b2, h3, h4⟩ := upTo_stuck ns h1
    refine ⟨b2, h3, ?_⟩
    rw [upTo, Go.bind_ok h2]
    simp only [Option.isSome_none, Bool.false_eq_true, if_false]
    rw [Go.bind_ok h4]
    rfl

theorem seen_enough {rest : List Bool} {stop : Err} {later : List (List Bool × Err)} {r : PackReader}
    {c : List UInt8} (h : Open stop later rest r c) {n : Nat} (hn : n ≤ c.length) :
    ∃ r', PackReader.seen n r = (.ok (c.take n, none), r') ∧ Open stop later rest r' (c.drop n) := by
  obtain ⟨r', h1, h2⟩ := open_enough h hn
  refine ⟨r', ?_, h2⟩
  rw [PackReader.seen, Go.bind_ok h1]
  simp [List.take_take]

theorem seen_short {rest : List Bool} {stop : Err} {later : List (List Bool × Err)} {r : PackReader}
    (hs : ∀ pos, Stuck ⟨rest, pos, stop, later⟩)
    {c : List UInt8} (h : Open stop later rest r c) {n : Nat} (hn : c.length < n) :
    ∃ b', Stuck b' ∧ PackReader.seen n r = (.ok ([], none), ⟨b', []⟩) := by
  obtain ⟨b', h1, h2⟩ := open_short hs h hn
  exact ⟨b', h1, by rw [PackReader.seen, Go.bind_ok h2]; rfl⟩

theorem open_new (ps : List Pack) (hw : ∀ p ∈ ps, p.WF) (hne : ∀ p ∈ ps, p.items ≠ []) (rest : List Bool) (stop : Err)
    (later : List (List Bool × Err)) :
    Open stop later rest (PackReader.new ⟨ps.flatMap encPack ++ rest, 0, stop, later⟩) (ps.flatMap Pack.payload) :=
  ⟨[], ps, 0, by simp, fun p hp => ⟨hw p hp, hne p hp⟩, by simp [PackReader.new, openBits], by
    simp [PackReader.new, payloads]⟩

/-- The reader has no way on at `rest`: fewer than four bytes are left of the source, or the next three bytes are not
the start code prefix 00 00 01. -/
def Spec.Halts (rest : List Bool) (later : List (List Bool × Err)) : Prop :=
  (rest.length < 32 ∧ later = []) ∨ (32 ≤ rest.length ∧ rest.take 24 ≠ bitsOf 24 1)

theorem stuck_of_halts {rest : List Bool} {later : List (List Bool × Err)} (h : Halts rest later) (stop : Err) (pos : Nat) :
    Stuck ⟨rest, pos, stop, later⟩ := by
  rcases h with h | ⟨h1, h2⟩
  · exact .inl h
  · refine .inr ⟨h1, fun hc => h2 ?_⟩
    have hl : (rest.take 24).length = 24 := by simp; omega
    have := bitsOf_natOfBits (rest.take 24)
    rw [hl] at this
    rw [← this]
    exact congrArg _ hc

/-- **C112 (partial)**, pack reader on a program stream without end code, cut off after any packet or followed by
anything that is not a start code: every Read that can be filled is filled, and from the first one that cannot be, all
Reads report neither bytes nor an error, whatever error the source reported.  So the payload left then is lost. -/
theorem C112_stall_partial (ps : List Pack) (hw : ∀ p ∈ ps, p.WF) (hne : ∀ p ∈ ps, p.items ≠ []) (rest : List Bool)
    (stop : Err) (later : List (List Bool × Err)) (hr : Halts rest later) (ns : List Nat) :
    ∃ r', PackReader.reads ns (PackReader.new ⟨ps.flatMap encPack ++ rest, 0, stop, later⟩) =
      (.ok (stall (ps.flatMap Pack.payload) ns), r') := by
  have key : ∀ (ns : List Nat) (r : PackReader) (c : List UInt8), Open stop later rest r c →
      ∃ r', upTo PackReader.seen ns r = (.ok (stall c ns), r') := by
    intro ns
    induction ns with
    | nil => intro r c _; exact ⟨r, by simp [upTo, stall]⟩
    | cons n ns ih =>
      intro r c h
      by_cases hn : n ≤ c.length
      · obtain ⟨r1, h1, h2⟩ := seen_enough h hn
        obtain ⟨r2, h3⟩ := ih r1 _ h2
        refine ⟨r2, ?_⟩
        rw [upTo, Go.bind_ok h1]
        simp only [Option.isSome_none, Bool.false_eq_true, if_false]
        rw [Go.bind_ok h3]
        simp [stall, hn]
      · obtain ⟨b', h1, h2⟩ := seen_short (stuck_of_halts hr stop) h (n := n) (by omega)
        obtain ⟨b2, _, h4⟩ := upTo_stuck ns h1
        refine ⟨⟨b2, []⟩, ?_⟩
        rw [upTo, Go.bind_ok h2]
        simp only [Option.isSome_none, Bool.false_eq_true, if_false]
        rw [Go.bind_ok h4]
        simp [stall, hn]
  rw [reads_upTo]
  exact key ns _ _ (open_new ps hw hne rest stop later)

theorem hang_stuck (sz : Nat → Nat) : ∀ (k i : Nat) {b : BR}, Stuck b →
    (readToEnd PackReader.seen sz k i ⟨b, []⟩).1 = .hang
  | 0, _, _, _ => rfl
  | k + 1, i, b, h => by
    obtain ⟨b1, h1, h2⟩ := seen_stuck h (sz i)
    have := hang_stuck sz k (i + 1) h1
    rw [readToEnd, Go.bind_ok h2]
    simp only
    cases hm : readToEnd PackReader.seen sz k (i + 1) ⟨b1, []⟩ with
    | mk a r2 =>
      rw [hm] at this
      simp only at this
      subst this
      rw [Go.bind_hang hm]

/-- **C112 (false for the pack reader)**: on every such stream ReadAll never returns, however many Reads it makes:
neither the end of the source nor an error of it is ever reported. -/
theorem C112_forever (ps : List Pack) (hw : ∀ p ∈ ps, p.WF) (hne : ∀ p ∈ ps, p.items ≠ []) (rest : List Bool)
    (stop : Err) (later : List (List Bool × Err)) (hr : Halts rest later) (sz : Nat → Nat) (k : Nat) :
    (readToEnd PackReader.seen sz k 0 (PackReader.new ⟨ps.flatMap encPack ++ rest, 0, stop, later⟩)).1 = .hang := by
  have key : ∀ (k i : Nat) (r : PackReader) (c : List UInt8), Open stop later rest r c →
      (readToEnd PackReader.seen sz k i r).1 = .hang := by
    intro k
    induction k with
    | zero => intro i r c _; rfl
    | succ k ih =>
      intro i r c h
      by_cases hn : sz i ≤ c.length
      · obtain ⟨r1, h1, h2⟩ := seen_enough h hn
        have := ih (i + 1) r1 _ h2
        rw [readToEnd, Go.bind_ok h1]
        simp only
        cases hm : readToEnd PackReader.seen sz k (i + 1) r1 with
        | mk a r2 =>
          rw [hm] at this
          simp only at this
          subst this
          rw [Go.bind_hang hm]
      · obtain ⟨b', h1, h2⟩ := seen_short (stuck_of_halts hr stop) h (n := sz i) (by omega)
        have := hang_stuck sz k (i + 1) h1
        rw [readToEnd, Go.bind_ok h2]
        simp only
        cases hm : readToEnd PackReader.seen sz k (i + 1) ⟨b', []⟩ with
        | mk a r2 =>
          rw [hm] at this
          simp only at this
          subst this
          rw [Go.bind_hang hm]
  exact key k 0 _ _ (open_new ps hw hne rest stop later)

/-- `C112_program` applied to two packs with three packets. -/
example (sz : Nat → Nat) (hsz : ∀ i, 0 < sz i) :
    ∃ r', readToEnd PackReader.seen sz 6 0 (PackReader.new (.ofBits (encProgram exPacks))) = (.ok ([1, 2, 3, 4, 5], none), r') := by
  have := C112_program exPacks exPacks_ok.1 exPacks_ok.2.1 [] .eof [] sz hsz (k := 6) (by rw [exPacks_ok.2.2]; decide)
  rw [exPacks_ok.2.2, List.append_nil] at this
  exact this

/-- `C112_forever` applied: the end code is missing, and the source fails instead of ending. -/
example (sz : Nat → Nat) (k : Nat) :
    (readToEnd PackReader.seen sz k 0 (PackReader.new ⟨exPacks.flatMap encPack ++ [], 0, .unexpectedEOF, []⟩)).1 = .hang :=
  C112_forever exPacks exPacks_ok.1 exPacks_ok.2.1 [] .unexpectedEOF [] (.inl ⟨by decide, rfl⟩) sz k

/-- A zero byte too many between two packs is enough: the packs after it are lost, and the end code is never seen. -/
example (sz : Nat → Nat) (k : Nat) :
    (readToEnd PackReader.seen sz k 0
      (PackReader.new ⟨exPacks.flatMap encPack ++ (bitsOf 8 0 ++ encProgram exPacks), 0, .eof, []⟩)).1 = .hang :=
  C112_forever exPacks exPacks_ok.1 exPacks_ok.2.1 _ .eof [] (.inr (by decide +kernel)) sz k

end PS

/-! ### concrete cases of the other readers -/

/-- `C112_pid_stream` applied to two packets on one PID. -/
example (sz : Nat → Nat) (hsz : ∀ i, 0 < sz i) :
    ∃ r', readToEnd (TS.PR.read { whre := TS.isPID 0x1fff } 3) sz 400 0
      (TS.PR.new (BR.ofBits ([TS.pkt0, TS.pkt1].map TS.Spec.encPkt).flatten)) =
        (.ok (TS.pkt0.body.data ++ TS.pkt1.body.data, none), r') := by
  have := TS.C112_pid_stream 0x1fff [TS.pkt0, TS.pkt1] ?_ ?_ sz hsz (fuel := 3) (n := 400) (by decide) (by decide +kernel)
  · have e : (([TS.pkt0, TS.pkt1].filter (fun p => p.hdr.pid == 0x1fff)).map (fun p => p.body.data)).flatten =
        TS.pkt0.body.data ++ TS.pkt1.body.data := by decide +kernel
    rw [e] at this
    exact this
  · intro p hp
    simp only [List.mem_cons, List.not_mem_nil, or_false] at hp
    rcases hp with rfl | rfl
    · exact ⟨TS.pkt0_wf, trivial⟩
    · exact TS.pkt1_wf
  · intro p hp _
    simp only [List.mem_cons, List.not_mem_nil, or_false] at hp
    rcases hp with rfl | rfl <;> rfl

/-- Two units, of which the first is complete: ReadAll returns it and `EOP`. -/
example : (readToEnd (TS.PU.read (TS.isPID 0x21) 9) (fun _ => 100) 9 0 (TS.PU.new (BR.ofBytes (TS.oneUnit ++ TS.oneUnit)))).1 =
    .ok (List.replicate 184 0x11, some .eop) := by decide +kernel

/-- A padding packet and two media packets (they meet the hypotheses of `C112_pes_stream_partial`, see PES/Props.lean). -/
example : (readToEnd (PES.PR.read 20) (fun _ => 2) 9 0 (PES.PR.new (BR.ofBits (PES.exItems.map PES.Item.enc).flatten))).1 =
    .ok ([1, 2, 3, 4, 5], none) := by decide +kernel

end Mpeg
