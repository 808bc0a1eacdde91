/-
Property theorems C10-C15: packet testers and the stream readers.
`Ends s ps e s'` (ReaderSpec) says that successive calls of `Packet.Next` produce the packets `ps` and then
the error `e`; by `C11_every_source` every source is of this kind (or makes `Next` panic, see C06).
-/
import Verif.TS.DeliverLemmas
import Verif.TS.Props
set_option linter.all false
namespace Mpeg.TS
open Spec

/-! ### C10 -/

/-- Tester expressions. -/
inductive Formula where
  | pid (k : Nat)
  | start
  | custom (t : Packet → Bool)
  | not (f : Formula)
  | and (f g : Formula)
  | or (f g : Formula)

/-- The tester built with `IsPID`, `IsPayloadUnitStart`, `Not`, `And`, `Or`. -/
def Formula.tester : Formula → Tester
  | pid k => isPID k
  | start => isPayloadUnitStart
  | custom t => t
  | not f => f.tester.not
  | and f g => f.tester.and g.tester
  | or f g => f.tester.or g.tester

/-- What the expression means. -/
def Formula.Holds (p : Packet) : Formula → Prop
  | pid k => p.pid = k
  | start => p.payloadUnitStartIndicator = true
  | custom t => t p = true
  | not f => ¬ f.Holds p
  | and f g => f.Holds p ∧ g.Holds p
  | or f g => f.Holds p ∨ g.Holds p

/-- **C10.** A composed tester accepts a packet exactly when the formula holds for it. -/
theorem C10_testers (f : Formula) (p : Packet) : f.tester p = true ↔ f.Holds p := by
  induction f with
  | pid k => simp [Formula.tester, Formula.Holds, isPID]
  | start => simp [Formula.tester, Formula.Holds, isPayloadUnitStart]
  | custom t => simp [Formula.tester, Formula.Holds]
  | not f ih => simp [Formula.tester, Formula.Holds, Tester.not, ← ih]
  | and f g ihf ihg => simp [Formula.tester, Formula.Holds, Tester.and, ← ihf, ← ihg]
  | or f g ihf ihg => simp [Formula.tester, Formula.Holds, Tester.or, ← ihf, ← ihg]

example : (Formula.and (.pid 256) (.not .start)).tester { Packet.new with pid := 256 } = true ∧
    (Formula.and (.pid 256) (.not .start)).tester
      { Packet.new with pid := 256, payloadUnitStartIndicator := true } = false := by
  constructor <;> rfl

/-! ### C11 -/

/-- Every source yields finitely many packets (fewer than it has bytes) and then an error, unless `Next`
panics. -/
theorem C11_every_source (br : BR) : ∃ ps s, Run ⟨Packet.new, br⟩ ps s ∧ 8 * ps.length ≤ br.size ∧
    ((∃ e s', Packet.next s = (.err e, s')) ∨ ∃ s', Packet.next s = (.panic, s')) := by
  obtain ⟨ps, s, h, h'⟩ := exists_run ⟨Packet.new, br⟩
  have := h.length_le
  exact ⟨ps, s, h, by simp only [St.size] at this; omega, h'⟩

/-- **C11.** Whatever the buffer sizes, the bytes read are exactly the first `ns.sum` bytes of the payloads
of the accepted packets; every Read is full until they are used up, and only then the error of the source
is reported. -/
theorem C11_payload_reader (w : Tester) (br : BR) {ps : List Packet} {e : Err} {s' : St}
    (h : Ends ⟨Packet.new, br⟩ ps e s') (ns : List Nat) {fuel : Nat} (hf : ps.length < fuel) :
    ∃ outs r', PR.reads { whre := w } fuel ns (PR.new br) = (.ok outs, r') ∧
      allBytes outs = (payloads w ps).take ns.sum ∧
      (ns.sum ≤ (payloads w ps).length →
        outs.map (fun o => (o.1.length, o.2)) = ns.map (fun n => (n, none))) ∧
      ((payloads w ps).length < ns.sum →
        ∃ init d, outs = init ++ [(d, some e)] ∧ ∀ o ∈ init, o.2 = none) := by
  obtain ⟨s1, h1, h2⟩ := h
  refine ⟨deliver (payloads w ps) e ns, ?_⟩
  have key : ∃ r', PR.reads { whre := w } fuel ns (PR.new br) = (.ok (deliver (payloads w ps) e ns), r') := by
    cases ns with
    | nil => exact ⟨_, rfl⟩
    | cons n ns =>
      rw [reads_new _ rfl]
      obtain ⟨r', h3, _⟩ := reads_deliver { whre := w } h2 (n :: ns)
        { PR.new br with started := true } ps ⟨rfl, rfl, h1, fun _ _ => rfl⟩ fuel hf
      exact ⟨r', by simpa [content, PR.new] using h3⟩
  obtain ⟨r', h3⟩ := key
  exact ⟨r', h3, deliver_bytes e ns _, deliver_ok e ns _, deliver_end e ns _⟩

/-- **C11**, for encoded streams: reading a stream of whole packets with `IsPID(k)` gives the payloads of
the packets with that PID (which all have to carry a payload, see C07). -/
theorem C11_pid_stream (k : Nat) (ps : List Pkt) (hps : ∀ p ∈ ps, p.WF ∧ p.body.Plain)
    (hb : ∀ p ∈ ps, p.hdr.pid = k → p.body.hasPayload = true) (ns : List Nat) {fuel : Nat}
    (hf : ps.length < fuel) :
    ∃ outs r', PR.reads { whre := isPID k } fuel ns (PR.new (BR.ofBits (ps.map encPkt).flatten)) =
        (.ok outs, r') ∧
      allBytes outs =
        (((ps.filter (fun p => p.hdr.pid == k)).map (fun p => p.body.data)).flatten).take ns.sum ∧
      ((((ps.filter (fun p => p.hdr.pid == k)).map (fun p => p.body.data)).flatten).length < ns.sum →
        ∃ init d, outs = init ++ [(d, some .eof)] ∧ ∀ o ∈ init, o.2 = none) := by
  have h1 := run_enc (stop := .eof) (later := []) ps Packet.new 0 hps rfl
  have h2 := next_at_end (s := ⟨lastOf Packet.new ps, ⟨[], 0 + 188 * 8 * ps.length, .eof, []⟩⟩) rfl rfl
    (by simp only; omega)
  have hp := observed_payloads (isPID k) (fun h => h.pid == k)
    (by intro p h b; have := result_hdr p h b; simp [isPID, this.2.2.2.1]) ps Packet.new
    (fun p hp hv => hb p hp (by simpa using hv))
  have hl : ∀ (ps : List Pkt) p0, (observed p0 ps).length = ps.length := by
    intro ps
    induction ps with
    | nil => intro; rfl
    | cons p ps ih => intro p0; simp [observed, ih]
  obtain ⟨outs, r', a, b, c, d⟩ := C11_payload_reader (isPID k) (BR.ofBits (ps.map encPkt).flatten)
    ⟨_, h1, h2⟩ ns (fuel := fuel) (by rw [hl]; exact hf)
  rw [hp] at b d
  exact ⟨outs, r', a, b, d⟩

example : (∀ p ∈ [pkt0, pkt1], p.WF ∧ p.body.Plain) ∧
    ∀ p ∈ [pkt0, pkt1], p.hdr.pid = 0x1fff → p.body.hasPayload = true := by
  constructor
  · intro p hp
    simp only [List.mem_cons, List.not_mem_nil, or_false] at hp
    rcases hp with rfl | rfl
    · exact ⟨pkt0_wf, trivial⟩
    · exact pkt1_wf
  · intro p hp _
    simp only [List.mem_cons, List.not_mem_nil, or_false] at hp
    rcases hp with rfl | rfl <;> rfl

/-! ### C12 -/

/-- **C12 (partial).** The packets `ps` are accepted by `t`, the next one, `q = s''.pkt`, is rejected.
Then nothing after `q` is ever delivered, everything before `q` is delivered before the end is reported, the
end is reported as `io.EOF`, and every later Read reports `io.EOF` as well.  Of `q` itself only what fits
into the Read that reaches it is delivered (`deliverCut`), so the full claim is false: `C12_false`. -/
theorem C12_take_while_partial (w t : Tester) (br : BR) {ps : List Packet} {s1 s'' : St}
    (h : Run ⟨Packet.new, br⟩ ps s1) (hq : Packet.next s1 = (.ok (), s''))
    (ht : ∀ p ∈ ps, t p = true) (hrej : t s''.pkt = false) (ns : List Nat) {fuel : Nat}
    (hf : ps.length < fuel) :
    ∃ outs r', PR.reads { whre := w, takeWhile := t } fuel ns (PR.new br) = (.ok outs, r') ∧
      outs = deliverCut (payloads w ps) (payloads w [s''.pkt]) .eof ns ∧
      allBytes outs <+: payloads w (ps ++ [s''.pkt]) ∧
      ((payloads w ps).length < ns.sum →
        payloads w ps <+: allBytes outs ∧
        (∃ init d, outs = init ++ [(d, some .eof)] ∧ ∀ o ∈ init, o.2 = none) ∧
        ∀ m fuel', PR.read { whre := w, takeWhile := t } fuel' m r' = (.ok ([], some .eof), r')) := by
  have key : ∃ r', PR.reads { whre := w, takeWhile := t } fuel ns (PR.new br) =
      (.ok (deliverCut (payloads w ps) (payloads w [s''.pkt]) .eof ns), r') ∧
      (ns.sum ≤ (payloads w ps).length ∨ r'.closed = true) := by
    cases ns with
    | nil => exact ⟨_, rfl, by simp⟩
    | cons n ns =>
      rw [reads_new _ rfl]
      obtain ⟨r', h3, h4⟩ := reads_deliverCut { whre := w, takeWhile := t } hq hrej (n :: ns)
        { PR.new br with started := true } ps ⟨rfl, rfl, h, ht⟩ fuel hf
      exact ⟨r', by simpa [content, PR.new] using h3, by simpa [content, PR.new] using h4⟩
  obtain ⟨r', h3, h4⟩ := key
  obtain ⟨a, b, _⟩ := deliverCut_bytes .eof (payloads w [s''.pkt]) ns (payloads w ps)
  refine ⟨_, r', h3, rfl, by rw [payloads_append]; exact a, fun hlt => ?_⟩
  obtain ⟨b1, b2⟩ := b hlt
  refine ⟨b1, b2, fun m fuel' => ?_⟩
  rcases h4 with h4 | h4
  · omega
  · exact read_closed _ h4

/-- With one Read large enough for everything the rejected packet is delivered completely. -/
theorem C12_one_read (w t : Tester) (br : BR) {ps : List Packet} {s1 s'' : St}
    (h : Run ⟨Packet.new, br⟩ ps s1) (hq : Packet.next s1 = (.ok (), s''))
    (ht : ∀ p ∈ ps, t p = true) (hrej : t s''.pkt = false) (n : Nat)
    (hn : (payloads w (ps ++ [s''.pkt])).length ≤ n) (hn' : (payloads w ps).length < n) {fuel : Nat}
    (hf : ps.length < fuel) :
    ∃ r', PR.reads { whre := w, takeWhile := t } fuel [n] (PR.new br) =
      (.ok [(payloads w (ps ++ [s''.pkt]), some .eof)], r') := by
  obtain ⟨outs, r', h1, h2, _⟩ := C12_take_while_partial w t br h hq ht hrej [n] hf
  refine ⟨r', ?_⟩
  rw [h1, h2, payloads_append]
  rw [payloads_append, List.length_append] at hn
  simp only [deliverCut]
  rw [if_neg (by omega), List.take_of_length_le (by omega)]

/-- two payload-only packets on different PIDs -/
def twoPackets : List UInt8 :=
  [0x47, 0x00, 0x21, 0x10] ++ List.replicate 184 0x11 ++
  ([0x47, 0x00, 0x22, 0x10] ++ List.replicate 184 0x22)

/-- **C12** is false as stated: with a 190-byte buffer most of the rejected packet's payload is lost, although
`where` accepts it; with a 400-byte buffer it is delivered.  So the result depends on the schedule. -/
theorem C12_false :
    ((PR.reads { whre := alwaysTrue, takeWhile := isPID 0x21 } 5 [190, 190] (PR.new (BR.ofBytes twoPackets))).1 =
      .ok [(List.replicate 184 0x11 ++ List.replicate 6 0x22, some .eof)]) ∧
    ((PR.reads { whre := alwaysTrue, takeWhile := isPID 0x21 } 5 [400, 190] (PR.new (BR.ofBytes twoPackets))).1 =
      .ok [(List.replicate 184 0x11 ++ List.replicate 184 0x22, some .eof)]) := by
  constructor <;> decide +kernel

/-! ### C13 -/

/-- **C13 (partial).** If some packet is accepted by `t`, the output starts with the payload of the first
such packet (accepted by `where` or not), followed by the accepted payloads after it.  The second half of
the claim is false: `C13_hangs`, `C13_false`. -/
theorem C13_skip_until_partial (w t : Tester) (br : BR) {pre ps : List Packet} {s1 s2 s' s'' : St} {e : Err}
    (h : Run ⟨Packet.new, br⟩ pre s1) (hpre : ∀ p ∈ pre, t p = false)
    (hq : Packet.next s1 = (.ok (), s2)) (hacc : t s2.pkt = true)
    (hrest : Run s2 ps s') (he : Packet.next s' = (.err e, s'')) (n : Nat) (ns : List Nat)
    {fuel : Nat} (hf : pre.length + ps.length + 1 ≤ fuel) :
    ∃ outs r', PR.reads { whre := w, skipUntil := some t } fuel (n :: ns) (PR.new br) = (.ok outs, r') ∧
      allBytes outs = (s2.pkt.payload ++ payloads w ps).take (n :: ns).sum ∧
      ((s2.pkt.payload ++ payloads w ps).length < (n :: ns).sum →
        ∃ init d, outs = init ++ [(d, some e)] ∧ ∀ o ∈ init, o.2 = none) := by
  obtain ⟨f, hfe⟩ : ∃ f, fuel = f + 1 + pre.length := ⟨fuel - 1 - pre.length, by omega⟩
  have hre := realign_ok t h hpre hq hacc f { PR.new br with started := true } rfl
  rw [← hfe] at hre
  have hread : PR.read { whre := w, skipUntil := some t } fuel n (PR.new br) =
      PR.read { whre := w, skipUntil := some t } fuel n
        { PR.new br with started := true, st := s2, remainder := s2.pkt.payload } := by
    have e1 : PR.read { whre := w, skipUntil := some t } fuel n (PR.new br) =
        (do PR.realign t fuel; PR.drain { whre := w, skipUntil := some t } fuel n)
          { PR.new br with started := true } := by simp [PR.read, PR.new]
    rw [e1, Go.bind_ok hre, read_drain _ rfl rfl]
    simp [PR.new]
  have hreads : PR.reads { whre := w, skipUntil := some t } fuel (n :: ns) (PR.new br) =
      PR.reads { whre := w, skipUntil := some t } fuel (n :: ns)
        { PR.new br with started := true, st := s2, remainder := s2.pkt.payload } := by
    rw [PR.reads, Go.bind_apply, Go.bind_apply, hread]
  obtain ⟨r', h3, _⟩ := reads_deliver { whre := w, skipUntil := some t } he (n :: ns)
    { PR.new br with started := true, st := s2, remainder := s2.pkt.payload } ps
    ⟨rfl, rfl, hrest, fun _ _ => rfl⟩ fuel (by omega)
  rw [hreads]
  exact ⟨_, r', h3, deliver_bytes e _ _, deliver_end e _ _⟩

/-- If no packet of the stream is accepted by `t`, the first Read never returns (for any amount of fuel). -/
theorem C13_hangs (w t : Tester) (ps : List Pkt) (hps : ∀ p ∈ ps, p.WF ∧ p.body.Plain)
    (h0 : t Packet.new = false) (ht : ∀ p ∈ observed Packet.new ps, t p = false) (n fuel : Nat) :
    (PR.read { whre := w, skipUntil := some t } fuel n
      (PR.new (BR.ofBits (ps.map encPkt).flatten))).1 = .hang := by
  have h1 := run_enc (stop := .eof) (later := []) ps Packet.new 0 hps rfl
  have h2 := next_at_end (s := ⟨lastOf Packet.new ps, ⟨[], 0 + 188 * 8 * ps.length, .eof, []⟩⟩) rfl rfl
    (by simp only; omega)
  have h3 := realign_hang_run t h1 ht h0 h2 fuel
    { PR.new (BR.ofBits (ps.map encPkt).flatten) with started := true } rfl
  have e1 : PR.read { whre := w, skipUntil := some t } fuel n (PR.new (BR.ofBits (ps.map encPkt).flatten)) =
      (do PR.realign t fuel; PR.drain { whre := w, skipUntil := some t } fuel n)
        { PR.new (BR.ofBits (ps.map encPkt).flatten) with started := true } := by simp [PR.read, PR.new]
  rw [e1]
  cases hr : PR.realign t fuel { PR.new (BR.ofBits (ps.map encPkt).flatten) with started := true } with
  | mk a b =>
    rw [hr] at h3
    simp only at h3
    subst h3
    rw [Go.bind_hang hr]

/-- **C13** is false as stated: on an empty stream Read does not report the end, it never returns. -/
theorem C13_false : ∃ (w t : Tester) (n : Nat), ∀ fuel,
    (PR.read { whre := w, skipUntil := some t } fuel n (PR.new (BR.ofBytes []))).1 = .hang :=
  ⟨alwaysTrue, isPID 5, 100, fun fuel => C13_hangs alwaysTrue (isPID 5) [] (by simp) rfl (by simp [observed]) 100 fuel⟩

example : isPID 5 Packet.new = false ∧ ∀ p ∈ observed Packet.new [pkt0, pkt1], isPID 5 p = false := by
  refine ⟨rfl, ?_⟩
  intro p hp
  simp only [observed, List.mem_cons, List.not_mem_nil, or_false] at hp
  rcases hp with rfl | rfl <;> rfl

/-! ### C14, C15 -/

/-- the unit-start condition of the payload unit reader -/
def startOf (w : Tester) : Packet → Bool := fun p => w p && p.payloadUnitStartIndicator

theorem src_new (w : Tester) (br : BR) {ps pre : List Packet} {gs : List Group} {s1 : St}
    (h : Run ⟨Packet.new, br⟩ ps s1) (hs : Split (startOf w) ps pre gs) {fuel : Nat}
    (hf : ps.length < fuel) :
    Src w s1 fuel (PU.new br) (gs.dropLast.map (unitBytes w)) := by
  obtain ⟨hps, hpre, hok⟩ := hs
  refine Src.new (pre := pre) rfl ?_ ?_ hpre hok ?_
  · simp [Tester.and, isPayloadUnitStart, PU.new, Packet.new]
  · rw [hps] at h; exact h
  · rw [hps] at hf; exact hf

/-- **C14 (partial).** Whatever the buffer sizes, a consumer of the payload unit reader sees exactly the
payload units in order, each ended by exactly one `EOP`, then the error of the source: `deliverUnits`.
Missing from the full claim: the last unit of the stream is never delivered (`dropLast`; `C14_false`). -/
theorem C14_units_partial (w : Tester) (br : BR) {ps pre : List Packet} {gs : List Group} {e : Err} {s' : St}
    (h : Ends ⟨Packet.new, br⟩ ps e s') (hne : e ≠ .eop) (hs : Split (startOf w) ps pre gs)
    (ns : List Nat) {fuel : Nat} (hf : ps.length < fuel) :
    ∃ outs r', PU.reads w fuel ns (PU.new br) = (.ok outs, r') ∧
      outs = deliverUnits e none (gs.dropLast.map (unitBytes w)) ns ∧
      -- the units seen so far, and a piece of the next one
      (∃ k, (sections outs).1 = (gs.dropLast.map (unitBytes w)).take k ∧
        (sections outs).2 <+: ((gs.dropLast.map (unitBytes w))[k]?).getD []) ∧
      -- complete once the error of the source is reported
      ((∃ d, (d, some e) ∈ outs) → sections outs = (gs.dropLast.map (unitBytes w), [])) ∧
      -- which happens after finitely many Reads
      ((∀ n ∈ ns, 0 < n) →
        ((gs.dropLast.map (unitBytes w)).map (fun u => u.length + 1)).sum < ns.length →
        ∃ d, (d, some e) ∈ outs) := by
  obtain ⟨s1, h1, h2⟩ := h
  obtain ⟨r', h3⟩ := pu_reads h2 hne ns (PU.new br) none _ (Abs.drained rfl rfl (src_new w br h1 hs hf))
  refine ⟨_, r', h3, rfl, ?_, ?_, ?_⟩
  · exact deliverUnits_sections e hne ns none _
  · exact deliverUnits_all e hne ns none _
  · exact deliverUnits_live e ns none _

/-- every packet sequence can be split into units -/
theorem C14_every_sequence (w : Tester) (ps : List Packet) : ∃ pre gs, Split (startOf w) ps pre gs :=
  exists_split (startOf w) ps

/-- one packet that starts a unit -/
def oneUnit : List UInt8 := [0x47, 0x40, 0x21, 0x10] ++ List.replicate 184 0x11

/-- **C14** is false as stated: a stream with a single unit delivers nothing at all. -/
theorem C14_false :
    (PU.reads (isPID 0x21) 9 [100, 100, 100] (PU.new (BR.ofBytes oneUnit))).1 = .ok [([], some .eof)] ∧
    (PU.reads (isPID 0x21) 9 [100, 100, 100] (PU.new (BR.ofBytes (oneUnit ++ oneUnit)))).1 =
      .ok [(List.replicate 100 0x11, none), (List.replicate 84 0x11, some .eop), ([], some .eof)] := by
  constructor <;> decide +kernel

/-- **C15.** The output does not depend on the packets before the first unit start nor on packets rejected
by the tester: two sources whose accepted packets agree from the first unit start on deliver the same. -/
theorem C15_prefix_and_rejected_ignored (w : Tester) (br br' : BR) {ps ps' pre pre' : List Packet}
    {gs gs' : List Group} {e : Err} {s s' : St}
    (h : Ends ⟨Packet.new, br⟩ ps e s) (h' : Ends ⟨Packet.new, br'⟩ ps' e s') (hne : e ≠ .eop)
    (hs : Split (startOf w) ps pre gs) (hs' : Split (startOf w) ps' pre' gs')
    (heq : gs.map (fun g => (g.1 :: g.2).filter w) = gs'.map (fun g => (g.1 :: g.2).filter w))
    (ns : List Nat) {fuel : Nat} (hf : ps.length < fuel) (hf' : ps'.length < fuel) :
    (PU.reads w fuel ns (PU.new br)).1 = (PU.reads w fuel ns (PU.new br')).1 := by
  obtain ⟨o1, r1, h1, h2, _⟩ := C14_units_partial w br h hne hs ns hf
  obtain ⟨o2, r2, h3, h4, _⟩ := C14_units_partial w br' h' hne hs' ns hf'
  rw [h1, h3, h2, h4]
  have key : ∀ (gs gs' : List Group),
      gs.map (fun g => (g.1 :: g.2).filter w) = gs'.map (fun g => (g.1 :: g.2).filter w) →
      gs.map (unitBytes w) = gs'.map (unitBytes w) := by
    intro gs gs' hh
    have := congrArg (List.map (fun l : List Packet => (l.map Packet.payload).flatten)) hh
    rw [List.map_map, List.map_map] at this
    exact this
  have : gs.dropLast.map (unitBytes w) = gs'.dropLast.map (unitBytes w) := by
    rw [List.map_dropLast, List.map_dropLast, key gs gs' heq]
  rw [this]

/-- Before the first unit start nothing at all is delivered. -/
theorem C15_no_start (w : Tester) (br : BR) {ps : List Packet} {e : Err} {s : St}
    (h : Ends ⟨Packet.new, br⟩ ps e s) (hne : e ≠ .eop) (hs : ∀ p ∈ ps, startOf w p = false)
    (n : Nat) (ns : List Nat) {fuel : Nat} (hf : ps.length < fuel) :
    (PU.reads w fuel (n :: ns) (PU.new br)).1 = .ok [([], some e)] := by
  obtain ⟨o1, r1, h1, h2, _⟩ := C14_units_partial w br h hne (pre := ps) (gs := [])
    ⟨by simp, hs, by simp⟩ (n :: ns) hf
  rw [h1, h2]
  rfl

/-! ### C14 for encoded streams -/

/-- The payload bytes that the packets `ps` contribute to the stream on PID `k`. -/
def pidBytes (k : Nat) (ps : List Pkt) : List UInt8 :=
  ((ps.filter (fun p => p.hdr.pid == k)).map (fun p => p.body.data)).flatten

/-- Does this packet start a unit on PID `k`? -/
def starts (k : Nat) (p : Pkt) : Bool := p.hdr.pid == k && p.hdr.pusi

theorem observed_append (p0 : Packet) (a b : List Pkt) :
    observed p0 (a ++ b) = observed p0 a ++ observed (lastOf p0 a) b := by
  induction a generalizing p0 with
  | nil => rfl
  | cons p a ih => simp [observed, lastOf, ih]

theorem observed_length (p0 : Packet) (ps : List Pkt) : (observed p0 ps).length = ps.length := by
  induction ps generalizing p0 with
  | nil => rfl
  | cons p ps ih => simp [observed, ih]

theorem startOf_result (k : Nat) (p0 : Packet) (p : Pkt) :
    startOf (isPID k) (result p0 p.hdr p.body) = starts k p := by
  have := result_hdr p0 p.hdr p.body
  simp [startOf, starts, isPID, this.2.2.2.1, this.2.1]

theorem observed_start (k : Nat) (ps : List Pkt) (h : ∀ p ∈ ps, starts k p = false) (p0 : Packet) :
    ∀ q ∈ observed p0 ps, startOf (isPID k) q = false := by
  induction ps generalizing p0 with
  | nil => simp [observed]
  | cons p ps ih =>
    intro q hq
    simp only [observed, List.mem_cons] at hq
    rcases hq with rfl | hq
    · rw [startOf_result]; exact h p (by simp)
    · exact ih (fun r hr => h r (by simp [hr])) _ q hq

/-- the groups observed for encoded groups -/
def observedGroups (p0 : Packet) : List (Pkt × List Pkt) → List Group
  | [] => []
  | g :: gs => (result p0 g.1.hdr g.1.body, observed (result p0 g.1.hdr g.1.body) g.2) ::
      observedGroups (lastOf p0 (g.1 :: g.2)) gs

theorem observed_flat (gs : List (Pkt × List Pkt)) (p0 : Packet) :
    observed p0 ((gs.map fun g => g.1 :: g.2).flatten) =
      ((observedGroups p0 gs).map fun g => g.1 :: g.2).flatten := by
  induction gs generalizing p0 with
  | nil => rfl
  | cons g gs ih =>
    simp only [List.map_cons, List.flatten_cons, observedGroups, observed_append, ih]
    rfl

theorem observedGroups_ok (k : Nat) (gs : List (Pkt × List Pkt))
    (h : ∀ g ∈ gs, starts k g.1 = true ∧ ∀ p ∈ g.2, starts k p = false) (p0 : Packet) :
    ∀ g ∈ observedGroups p0 gs, startOf (isPID k) g.1 = true ∧
      ∀ p ∈ g.2, startOf (isPID k) p = false := by
  induction gs generalizing p0 with
  | nil => simp [observedGroups]
  | cons g gs ih =>
    intro x hx
    simp only [observedGroups, List.mem_cons] at hx
    rcases hx with rfl | hx
    · have := h g (by simp)
      exact ⟨by simp only [startOf_result, this.1], observed_start k g.2 this.2 _⟩
    · exact ih (fun y hy => h y (by simp [hy])) _ x hx

theorem observedGroups_bytes (k : Nat) (gs : List (Pkt × List Pkt))
    (h : ∀ g ∈ gs, ∀ p ∈ g.1 :: g.2, p.hdr.pid = k → p.body.hasPayload = true) (p0 : Packet) :
    (observedGroups p0 gs).map (unitBytes (isPID k)) = gs.map (fun g => pidBytes k (g.1 :: g.2)) := by
  induction gs generalizing p0 with
  | nil => rfl
  | cons g gs ih =>
    simp only [observedGroups, List.map_cons]
    rw [ih (fun y hy => h y (by simp [hy]))]
    congr 1
    exact observed_payloads (isPID k) (fun h => h.pid == k)
      (by intro p h b; have := result_hdr p h b; simp [isPID, this.2.2.2.1]) (g.1 :: g.2) p0
      (fun p hp hv => h g (by simp) p hp (by simpa using hv))

/-- **C14 (partial)** for encoded streams: `pre` and the groups `gs` are packets of any PIDs; unit `i` of PID
`k` consists of the packets of that PID from the `i`-th start on.  Reading with `IsPID(k)` gives the units,
except the last one. -/
theorem C14_pid_stream_partial (k : Nat) (pre : List Pkt) (gs : List (Pkt × List Pkt))
    (hps : ∀ p ∈ pre ++ (gs.map fun g => g.1 :: g.2).flatten, p.WF ∧ p.body.Plain)
    (hb : ∀ p ∈ (gs.map fun g => g.1 :: g.2).flatten, p.hdr.pid = k → p.body.hasPayload = true)
    (hpre : ∀ p ∈ pre, starts k p = false)
    (hgs : ∀ g ∈ gs, starts k g.1 = true ∧ ∀ p ∈ g.2, starts k p = false)
    (ns : List Nat) {fuel : Nat}
    (hf : (pre ++ (gs.map fun g => g.1 :: g.2).flatten).length < fuel) :
    ∃ r', PU.reads (isPID k) fuel ns
        (PU.new (BR.ofBits ((pre ++ (gs.map fun g => g.1 :: g.2).flatten).map encPkt).flatten)) =
      (.ok (deliverUnits .eof none (gs.dropLast.map (fun g => pidBytes k (g.1 :: g.2))) ns), r') := by
  have h1 := run_enc (stop := .eof) (later := []) _ Packet.new 0 hps rfl
  have h2 := next_at_end (s := ⟨lastOf Packet.new (pre ++ (gs.map fun g => g.1 :: g.2).flatten),
    ⟨[], 0 + 188 * 8 * (pre ++ (gs.map fun g => g.1 :: g.2).flatten).length, .eof, []⟩⟩) rfl rfl
    (by simp only; omega)
  have hsplit : Split (startOf (isPID k)) (observed Packet.new (pre ++ (gs.map fun g => g.1 :: g.2).flatten))
      (observed Packet.new pre) (observedGroups (lastOf Packet.new pre) gs) :=
    ⟨by rw [observed_append, observed_flat], observed_start k pre hpre _, observedGroups_ok k gs hgs _⟩
  obtain ⟨o, r', h3, h4, _⟩ := C14_units_partial (e := .eof) (isPID k) _ ⟨_, h1, h2⟩ (by decide) hsplit ns (fuel := fuel)
    (by rw [observed_length]; exact hf)
  refine ⟨r', ?_⟩
  rw [List.map_dropLast, observedGroups_bytes k gs (fun g hg p hp => hb p
    (List.mem_flatten.mpr ⟨g.1 :: g.2, List.mem_map.mpr ⟨g, hg, rfl⟩, hp⟩)), ← List.map_dropLast] at h4
  subst h4
  exact h3

/-- the hypotheses are satisfiable: another packet first, then two units of PID 0x1fff -/
example : (∀ p ∈ [pkt1] ++ ([(pkt0, [pkt1]), (pkt0, [])].map fun g => g.1 :: g.2).flatten,
      p.WF ∧ p.body.Plain) ∧ starts 0x1fff pkt0 = true ∧ pidBytes 0x1fff [pkt0] ≠ [] := by
  refine ⟨?_, rfl, by decide⟩
  intro p hp
  have : p = pkt0 ∨ p = pkt1 := by
    simp only [List.map_cons, List.map_nil, List.flatten_cons, List.flatten_nil, List.mem_append,
      List.mem_cons, List.not_mem_nil, or_false] at hp
    rcases hp with h | ⟨h | h⟩ | h <;> simp [h]
  rcases this with rfl | rfl
  · exact ⟨pkt0_wf, trivial⟩
  · exact pkt1_wf

end Mpeg.TS
