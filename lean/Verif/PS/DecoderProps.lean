/-
Property C32: the protocol of ps.Decoder, for every input and every interleaving.
-/
import Verif.PS.DecoderStream
import Verif.PS.Props
set_option linter.all false
namespace Mpeg.PS
open Spec

/-- **C32**, order of events, for every input and interleaving: complete packs, numbered in order, each announced,
then its packets, then its channel closed; at most one unfinished pack after them; the end events only after the
last pack, each once, `done` between the two closes. -/
theorem C32_order (b0 : BR) (s : DSt) (hr : Reach b0 s) :
    ∃ l evs o e b, PacksEvs l evs ∧ s.log = evs ++ o ++ e ∧ e <+: endEvs b ∧
      (o = [] ∨ (e = [] ∧ ∃ h qs, OpenEvs l.length h qs o)) := by
  rcases reach_inv hr with ⟨_, hi⟩ | ⟨_, hc⟩
  · cases hd : s.d with
    | readPack =>
      simp only [Inv, hd] at hi
      obtain ⟨l, _, a4, _⟩ := hi
      exact ⟨l, s.log, [], [], true, a4, by simp, List.nil_prefix, .inl rfl⟩
    | send h =>
      simp only [Inv, hd] at hi
      obtain ⟨l, evs, b2, ⟨b1, a1, a2, a3, a4, a5, a6, a7⟩, a8⟩ := hi
      refine ⟨l, evs, _, [], true, a6, by rw [List.append_nil]; exact a8, List.nil_prefix, .inr ⟨rfl, h, [], ?_⟩⟩
      split
      · exact .closed h
      · exact .none h
    | wait =>
      simp only [Inv, hd] at hi
      obtain ⟨h, l, evs, b2, qs, ⟨b1, a1, a2, a3, a4, a5, a6, a7⟩, a8, a9⟩ := hi
      by_cases hp : s.p = .complete
      · obtain ⟨o, ho, hl⟩ := a9 hp
        exact ⟨l ++ [(h, qs)], evs ++ o, [], [], true, .snoc a6 ho, by simp [hl], List.nil_prefix, .inl rfl⟩
      · exact ⟨l, evs, _, [], true, a6, by rw [List.append_nil]; exact a8 hp, List.nil_prefix,
          .inr ⟨rfl, h, qs, .part h qs⟩⟩
    | peekNext =>
      simp only [Inv, hd] at hi
      obtain ⟨l, _, a4, _⟩ := hi
      exact ⟨l, s.log, [], [], true, a4, by simp, List.nil_prefix, .inl rfl⟩
    | peekEnd =>
      simp only [Inv, hd] at hi
      obtain ⟨l, _, a4, _⟩ := hi
      exact ⟨l, s.log, [], [], true, a4, by simp, List.nil_prefix, .inl rfl⟩
    | closePacks =>
      simp only [Inv, hd] at hi
      obtain ⟨l, b, _, a4, _⟩ := hi
      exact ⟨l, s.log, [], [], true, a4, by simp, List.nil_prefix, .inl rfl⟩
    | sendDone =>
      simp only [Inv, hd] at hi
      obtain ⟨l, b, evs, _, a4, _, a6⟩ := hi
      exact ⟨l, evs, [], [.packsClosed], true, a4, by rw [List.append_nil]; exact a6, ⟨_, rfl⟩, .inl rfl⟩
    | closeDone =>
      simp only [Inv, hd] at hi
      obtain ⟨l, b, evs, _, a4, _, a6⟩ := hi
      exact ⟨l, evs, [], [.packsClosed, .done (s.err == none)], s.err == none, a4,
        by rw [List.append_nil]; exact a6, ⟨_, rfl⟩, .inl rfl⟩
    | finished =>
      simp only [Inv, hd] at hi
      obtain ⟨l, b, evs, _, a4, _, a6⟩ := hi
      exact ⟨l, evs, [], endEvs (s.err == none), s.err == none, a4, by rw [List.append_nil]; exact a6,
        ⟨[], by simp⟩, .inl rfl⟩
  · obtain ⟨h, l, evs, b1, b2, b3, b4, qs, o, a1, a2, a3, _, _, a4, a5, a6, a7⟩ := hc
    exact ⟨l, evs, o, [], true, a5, by simp [a7], List.nil_prefix, .inr ⟨rfl, h, qs, a6⟩⟩

theorem fin_iff {l : List (PackHeader × List PES.Packet)} {b : BR} {e : Option Err} (h : Fin l b e) :
    e = none ↔ l ≠ [] ∧ BR.peek 32 b = (.ok programEndCode, b) := by
  cases h with
  | header hc h =>
    refine ⟨fun h => (by cases h), fun ⟨h1, h2⟩ => ?_⟩
    have := hc h1
    rw [h2] at this; cases this
  | peek hl h => exact ⟨fun h => (by cases h), fun ⟨h1, h2⟩ => by rw [h2] at h; cases h⟩
  | other hl h hp hv =>
    refine ⟨fun h => (by cases h), fun ⟨h1, h2⟩ => ?_⟩
    rw [h2] at h; cases h; exact absurd rfl hv
  | ok hl h => exact ⟨fun _ => ⟨hl, h⟩, fun _ => rfl⟩

/-- **C32**, refinement and done value, for every input and interleaving: when the decoder has finished, the
packs and packets received are those of reading the stream sequentially (`Hist`: pack header, packets until a
pack or end code or an error, and so on), and the done value is true, and `Err()` nil, exactly when the next 32
bits behind the last pack are the program end code. -/
theorem C32_done (b0 : BR) (s : DSt) (hr : Reach b0 s) (hf : s.d = .finished) :
    ∃ l b evs v, Hist b0 l b ∧ PacksEvs l evs ∧ s.log = evs ++ endEvs v ∧
      (v = true ↔ s.err = none) ∧ (v = true ↔ l ≠ [] ∧ BR.peek 32 b = (.ok programEndCode, b)) := by
  have hi : Inv b0 s := by
    rcases reach_inv hr with ⟨_, hi⟩ | ⟨hc, _⟩
    · exact hi
    · exfalso
      -- a crash happens in the pack goroutine, while the decoder goroutine sends or waits
      have key : ∀ t, Reach b0 t → t.crashed = true → t.d ≠ .finished := by
        intro t ht
        induction ht with
        | init => intro h; cases h
        | @step u t hu hs ih =>
          intro hc
          cases hs with
          | d h0 hs => rw [d_crashed hs, h0] at hc; cases hc
          | p h0 hs =>
            rcases reach_inv hu with ⟨_, hi⟩ | ⟨h1, _⟩
            · cases hs with
              | packet_panic hpc h =>
                rcases busy_of_p hi (by simp [hpc]) with ⟨g, hd⟩ | hd <;> simp [hd]
              | _ => simp_all
            · rw [h0] at h1; cases h1
      exact key s hr hc hf
  simp only [Inv, hf] at hi
  obtain ⟨l, b, evs, ⟨a1, _, _⟩, a4, a5, a6⟩ := hi
  have : (s.err == none) = true ↔ s.err = none := by simp
  exact ⟨l, b, evs, s.err == none, a1, a4, a6, this, this.trans (fin_iff a5)⟩

/-- **C32**, no data race: the two goroutines never use the bit reader at the same time, and while the pack
goroutine is in its loop the decoder goroutine can only send the pack or wait. -/
theorem C32_exclusive (b0 : BR) (s : DSt) (hr : Reach b0 s) (hc : s.crashed = false) (hp : s.p ≠ .none) :
    (∃ h, s.d = .send h) ∨ s.d = .wait := by
  rcases reach_inv hr with ⟨_, hi⟩ | ⟨h, _⟩
  · exact busy_of_p hi hp
  · rw [hc] at h; cases h

/-- **C32**, no deadlock: with a consumer that receives, something can happen until the decoder has finished. -/
theorem C32_progress (b0 : BR) (s : DSt) (hr : Reach b0 s) (hc : s.crashed = false) (hf : s.d ≠ .finished) :
    ∃ s', Step s s' := by
  rcases reach_inv hr with ⟨_, hi⟩ | ⟨h, _⟩
  · exact progress hi hc hf
  · rw [hc] at h; cases h

/-- `n` steps -/
inductive Steps : Nat → DSt → DSt → Prop
  | nil (s : DSt) : Steps 0 s s
  | snoc {n : Nat} {s s1 s2 : DSt} : Steps n s s1 → Step s1 s2 → Steps (n + 1) s s2

theorem steps_reach {n : Nat} {b0 : BR} {s : DSt} (h : Steps n (DSt.new b0) s) : Reach b0 s := by
  generalize hs0 : DSt.new b0 = s0 at h
  induction h with
  | nil => subst hs0; exact .init
  | snoc _ h2 ih => exact .step (ih hs0) h2

/-- **C32**, termination: every run, under every schedule, has at most `20 * bits + 9` steps. -/
theorem C32_terminates (b0 : BR) (n : Nat) (s : DSt) (h : Steps n (DSt.new b0) s) : n ≤ 20 * b0.size + 9 := by
  have key : ∀ n s, Steps n (DSt.new b0) s → n + weight s ≤ 20 * b0.size + 9 := by
    intro n
    induction n with
    | zero =>
      intro s h
      generalize hs0 : DSt.new b0 = s0 at h
      cases h
      subst hs0
      simp [weight, DSt.new, wD, wP]
    | succ n ih =>
      intro s h
      generalize hs0 : DSt.new b0 = s0 at h
      cases h with
      | @snoc _ _ s1 _ h1 h2 =>
        subst hs0
        have e1 := ih _ h1
        rcases reach_inv (steps_reach h1) with ⟨_, hi⟩ | ⟨hc, _⟩
        · have := weight_dec hi h2; omega
        · cases h2 with
          | d h _ => rw [hc] at h; cases h
          | p h _ => rw [hc] at h; cases h
  have := key n s h
  omega

/-- **C32**, well-formed program streams: under every interleaving the decoder does not crash, has at every time
announced a prefix of the packs with their contents, and when it has finished it has delivered exactly the packs
of the program, in order, each with its packets, and the done value is true. -/
theorem C32_stream (ps : List Pack) (hne : ps ≠ []) (hw : ∀ p ∈ ps, p.WF) (tail : List Bool) (stop : Err)
    (later : List (List Bool × Err)) (s : DSt) (hr : Reach ⟨encProgram ps ++ tail, 0, stop, later⟩ s) :
    s.crashed = false ∧
    (s.d = .finished → s.err = none ∧ ∃ l evs, ShowsAll l ps ∧ PacksEvs l evs ∧ s.log = evs ++ endEvs true) := by
  have hb0 : (⟨encProgram ps ++ tail, 0, stop, later⟩ : BR) = ⟨progBits [] ps tail, 0, stop, later⟩ := by
    simp [progBits, encProgram]
  rw [hb0] at hr
  rcases reach_inv hr with ⟨h0, hi⟩ | ⟨_, hc⟩
  · refine ⟨h0, fun hf => ?_⟩
    simp only [Inv, hf] at hi
    obtain ⟨l, b, evs, ⟨a1, _, _⟩, a4, a5, a6⟩ := hi
    obtain ⟨e1, e2⟩ := fin_wf hw hne rfl a1 a5
    refine ⟨e1, l, evs, e2, a4, ?_⟩
    rw [a6, e1]; rfl
  · exact absurd (crash_wf hw hne rfl hc) id

/-- Together with `C32_terminates` and `C32_progress`: the hypotheses are met by a program with a system header,
padding, and an empty pack. -/
example : exPacks ++ [⟨{}, []⟩] ≠ [] ∧ ∀ p ∈ exPacks ++ [⟨{}, []⟩], p.WF := by
  refine ⟨by simp [exPacks], fun p hp => ?_⟩
  rcases List.mem_append.mp hp with h | h
  · exact exPacks_ok.1 p h
  · simp only [List.mem_cons, List.not_mem_nil, or_false] at h
    subst h
    exact ⟨by decide +kernel, by simp⟩

/-- Received packs of any prefix of a run (unfinished included) are those of the program. -/
theorem C32_stream_prefix (ps : List Pack) (hne : ps ≠ []) (hw : ∀ p ∈ ps, p.WF) (tail : List Bool) (stop : Err)
    (later : List (List Bool × Err)) {l : List (PackHeader × List PES.Packet)} {b : BR}
    (h : Hist ⟨encProgram ps ++ tail, 0, stop, later⟩ l b) : ∃ ps1 ps2, ps = ps1 ++ ps2 ∧ ShowsAll l ps1 := by
  have hb0 : (⟨encProgram ps ++ tail, 0, stop, later⟩ : BR) = ⟨progBits [] ps tail, 0, stop, later⟩ := by
    simp [progBits, encProgram]
  obtain ⟨ps1, ps2, _, h1, h2, _⟩ := hist_wf hw hb0 h (.inr hne)
  exact ⟨ps1, ps2, h1, h2⟩

/-- An error inside a packet is not reported: the packet loop ends silently, and when the reader then happens to
stand at an end code the done value is true.  Here the only packet of the stream has an invalid header marker;
no packet is delivered, yet the run ends with `done = true`. -/
theorem C32_masked_error : ∃ (bits : List Bool) (h : PackHeader) (s : DSt),
    Reach (BR.ofBits bits) s ∧ s.log = [.pack 0 h, .closed 0, .packsClosed, .done true, .doneClosed] ∧
    bits = encPHdr {} ++ (PES.Spec.encStart 0xe0 100 ++ (bitsOf 2 3 ++ bitsOf 32 programEndCode)) := by
  let r := bitsOf 2 3 ++ bitsOf 32 programEndCode
  let bits := encPHdr {} ++ (PES.Spec.encStart 0xe0 100 ++ r)
  refine ⟨bits, viewPHdr {}, DSt.mk ⟨bitsOf 32 programEndCode, 112 + 48 + 2, .eof, []⟩ .finished .none 1 none
      false [.pack 0 (viewPHdr {}), .closed 0, .packsClosed, .done true, .doneClosed], ?_, rfl, rfl⟩
  · have s1 := Reach.step (.init (br := BR.ofBits bits)) (.d rfl (.header rfl
      (show newPackHeader (BR.ofBits bits) = (.ok (viewPHdr {}), ⟨PES.Spec.encStart 0xe0 100 ++ r, 112, .eof, []⟩) by
        decide +kernel)))
    have s2 := Reach.step s1 (.d rfl (.announce rfl))
    have s3 := Reach.step s2 (.p rfl (.prefix (v := 1)
      (b := ⟨PES.Spec.encStart 0xe0 100 ++ r, 112, .eof, []⟩) rfl (by decide +kernel) rfl))
    have s4 := Reach.step s3 (.p rfl (.code_next (v := 0x1e0)
      (b := ⟨PES.Spec.encStart 0xe0 100 ++ r, 112, .eof, []⟩) rfl (by decide +kernel) (by decide)))
    have s5 := Reach.step s4 (.p rfl (.packet_err (e := .markerNotFound)
      (b := ⟨bitsOf 32 programEndCode, 112 + 48 + 2, .eof, []⟩) rfl (by decide +kernel)))
    have s6 := Reach.step s5 (.p rfl (.close rfl))
    have s7 := Reach.step s6 (.d rfl (.join rfl rfl))
    have s8 := Reach.step s7 (.d rfl (.next_other (v := programEndCode)
      (b := ⟨bitsOf 32 programEndCode, 112 + 48 + 2, .eof, []⟩) rfl (by decide +kernel) (by decide)))
    have s9 := Reach.step s8 (.d rfl (.end_ok (v := programEndCode)
      (b := ⟨bitsOf 32 programEndCode, 112 + 48 + 2, .eof, []⟩) rfl (by decide +kernel) rfl))
    have s10 := Reach.step s9 (.d rfl (.closePacks rfl))
    have s11 := Reach.step s10 (.d rfl (.sendDone rfl))
    have s12 := Reach.step s11 (.d rfl (.closeDone rfl))
    exact s12

/-- **C64** (partial): `NewPackHeader` returns a header or an error for every input; `Read` of the pack reader
returns for every input, or panics inside `pes.NewPacket` (C62). -/
theorem C64_header : Go.Safe newPackHeader := safe_newPackHeader
theorem C64_read_returns_partial (n : Nat) (r : PackReader) : (PackReader.read n r).1 ≠ .hang := read_returns n r

/-- C64 in full is false: a packet with the ESCR flag makes `Read` panic. -/
theorem C64_false : (PackReader.read 1 (PackReader.new (BR.ofBits (encPHdr {} ++ (PES.Spec.encStart 0xe0 100 ++
    (bitsOf 2 2 ++ (bitsOf 8 0 ++ (bitsOf 8 0x20 ++ bitsOf 64 0)))))))).1 = .panic := by decide +kernel

end Mpeg.PS
