/-
Lemmas on stacked readers.
-/
import Verif.Pipe.Spec
import Verif.PES.Props
import Verif.TS.ReaderProps
namespace Mpeg.Pipe
open PES.Spec

/-! ### segments -/

theorem units_segs (e : Err) : ∀ (ns : List Nat) (us : List (List UInt8)), (∀ n ∈ ns, 0 < n) →
    (TS.Spec.deliverUnits e none us ns = deliverSegs (us.map (fun u => (u, Err.eop)) ++ [([], e)]) ns) ∧
    ∀ b, TS.Spec.deliverUnits e (some b) us ns = deliverSegs ((b, Err.eop) :: (us.map (fun u => (u, Err.eop)) ++ [([], e)])) ns
  | [], us, _ => by
    refine ⟨?_, fun b => ?_⟩
    · cases us <;> simp [TS.Spec.deliverUnits, deliverSegs]
    · simp [TS.Spec.deliverUnits, deliverSegs]
  | n :: ns, us, h => by
    have hn := h n (List.mem_cons_self ..)
    have ih := fun us => units_segs e ns us (fun m hm => h m (List.mem_cons_of_mem _ hm))
    have hb : ∀ b us, TS.Spec.deliverUnits e (some b) us (n :: ns) =
        deliverSegs ((b, Err.eop) :: (us.map (fun u => (u, Err.eop)) ++ [([], e)])) (n :: ns) := by
      intro b us
      rw [TS.Spec.deliverUnits, deliverSegs]
      split
      · rw [(ih us).2]
      · rw [(ih us).1]
    refine ⟨?_, fun b => hb b us⟩
    cases us with
    | nil =>
      rw [TS.Spec.deliverUnits]
      simp only [List.map_nil, List.nil_append]
      rw [deliverSegs, if_neg (by simp; omega)]
      cases ns <;> simp [deliverSegs]
    | cons u us =>
      rw [TS.Spec.deliverUnits]
      simp only [List.map_cons, List.cons_append]
      rw [deliverSegs]
      split
      · rw [(ih us).2]
      · rw [(ih us).1]

/-- The parts as segments. -/
def segs (e : Err) : List UInt8 → List (List UInt8) → List (List UInt8 × Err)
  | c, [] => [(c, e)]
  | c, u :: us => (c, .eop) :: segs e u us

theorem parts_segs (e : Err) : ∀ (ns : List Nat) (c : List UInt8) (us : List (List UInt8)),
    deliverParts e c us ns = deliverSegs (segs e c us) ns
  | [], c, us => by cases us <;> simp [deliverParts, deliverSegs]
  | n :: ns, c, [] => by
    rw [deliverParts, segs, deliverSegs]
    split
    · rw [parts_segs e ns]; rfl
    · cases ns <;> simp [deliverSegs]
  | n :: ns, c, u :: us => by
    rw [deliverParts, segs, deliverSegs]
    split
    · rw [parts_segs e ns]; rfl
    · rw [parts_segs e ns]

/-! ### PES packets in units -/

variable {stop : Err} {later : List (List Bool × Err)}

theorem run_closed : ∀ (l : List PesPkt) (p : PES.Packet) (pos : Nat) (r : List Bool),
    (∀ q ∈ l, q.WF ∧ 3 + q.hdr.dataLen + q.data.length < 65536) →
    ∃ ps p' pos', PES.Run ⟨p, ⟨l.flatMap (fun p => encPacket p.id p.hdr p.data) ++ r, pos, stop, later⟩⟩ ps
        ⟨p', ⟨r, pos', stop, later⟩⟩ ∧ payloads ps = l.flatMap (·.data) ∧ ps.length = l.length
  | [], p, pos, r, _ => ⟨[], p, pos, .nil _, rfl, rfl⟩
  | q :: l, p, pos, r, hw => by
    obtain ⟨⟨h1, h2, h3, h4⟩, h5⟩ := hw _ (List.mem_cons_self ..)
    have hn := PES.next_packet (r := l.flatMap (fun p => encPacket p.id p.hdr p.data) ++ r) (pos := pos) (stop := stop)
      (later := later) p q.id q.hdr q.data h1 (PES.hasHeader_of h2) h3 h4 h5
    obtain ⟨ps, p', pos', hr, he, hl⟩ := run_closed l ⟨q.id, 3 + q.hdr.dataLen + q.data.length, some (PES.viewHdr q.hdr), q.data⟩
      (pos + 8 * (9 + q.hdr.dataLen + q.data.length)) r (fun i hi => hw i (List.mem_cons_of_mem _ hi))
    refine ⟨_, p', pos', .cons (by rw [List.flatMap_cons, List.append_assoc]; exact hn) hr, ?_, ?_⟩
    · simp only [payloads, List.map_cons, List.flatten_cons, List.flatMap_cons]
      rw [← he]; rfl
    · simp [hl]

theorem next_eop (p : PES.Packet) (pos : Nat) (b : List Bool) (e : Err) :
    PES.Packet.next ⟨p, ⟨[], pos, .eop, (b, e) :: later⟩⟩ = (.err .eop, ⟨p, ⟨b, pos, e, later⟩⟩) := by
  have h : PES.St.lift PES.prefix24 ⟨p, ⟨[], pos, .eop, (b, e) :: later⟩⟩ = (.err .eop, ⟨p, ⟨b, pos, e, later⟩⟩) := by
    have h0 : BR.peek 24 ⟨[], pos, .eop, (b, e) :: later⟩ = (.err .eop, ⟨b, pos, e, later⟩) := by
      simp [BR.peek, BR.failErr, BR.failTo]
    have : PES.prefix24 ⟨[], pos, .eop, (b, e) :: later⟩ = (.err .eop, ⟨b, pos, e, later⟩) := by
      unfold PES.prefix24; rw [Go.bind_err h0]
    simp [PES.St.lift, this]
  unfold PES.Packet.next
  rw [Go.bind_err h]

/-- The bits of the units, each ended by `EOP`, and then `e`. -/
def feed (e : Err) : List PesUnit → List Bool × Err × List (List Bool × Err)
  | [] => ([], e, [])
  | u :: us => (u.enc, .eop, ((feed e us).1, (feed e us).2.1) :: (feed e us).2.2)

/-- packets in a list of units -/
def count (us : List PesUnit) : Nat := (us.map fun u => u.closed.length + u.last.toList.length).sum

theorem run_units (e : Err) (he : e ≠ .eop) : ∀ (us : List PesUnit) (p : PES.Packet) (pos : Nat), (∀ u ∈ us, u.WF) →
    ∃ pss, PES.Parts ⟨p, ⟨(feed e us).1, pos, (feed e us).2.1, (feed e us).2.2⟩⟩ pss e ∧ pss.map payloads = pieces us ∧
      PES.total pss = count us
  | [], p, pos, _ => ⟨[[]], .last (.nil _) (PES.next_end p pos e) he, rfl, rfl⟩
  | u :: us, p, pos, hw => by
    obtain ⟨hw1, hw2⟩ := hw u (List.mem_cons_self ..)
    cases hl : u.last with
    | none =>
      obtain ⟨ps, p', pos', hr, hpay, hlen⟩ := run_closed (stop := .eop)
        (later := ((feed e us).1, (feed e us).2.1) :: (feed e us).2.2) u.closed p pos [] hw1
      obtain ⟨pss, h1, h2, h3⟩ := run_units e he us p' pos' (fun v hv => hw v (List.mem_cons_of_mem _ hv))
      refine ⟨ps :: pss, .part (s1 := _) ?_ (next_eop p' pos' _ _) h1, ?_, ?_⟩
      · have : u.enc = u.closed.flatMap (fun p => encPacket p.id p.hdr p.data) ++ [] := by unfold PesUnit.enc; rw [hl]
        simp only [feed]
        rw [this]
        exact hr
      · simp only [List.map_cons, h2, pieces, hl, hpay, PesUnit.payload, List.append_nil]
      · simp only [PES.total, List.map_cons, List.sum_cons, count, hl] at h3 ⊢
        rw [h3, hlen]
        simp
    | some q =>
      obtain ⟨ps, p', pos', hr, hpay, hlen⟩ := run_closed (stop := .eop)
        (later := ((feed e us).1, (feed e us).2.1) :: (feed e us).2.2) u.closed p pos (encUnbounded q.id q.hdr q.data) hw1
      obtain ⟨q1, q2, q3, q4⟩ := hw2 q hl
      have hn := PES.next_unbounded (pos := pos') (stop := .eop)
        (later := ((feed e us).1, (feed e us).2.1) :: (feed e us).2.2) p' q.id q.hdr q.data q1 (PES.hasHeader_of q2) q3 q4
        (.inr rfl)
      have henc : u.enc = u.closed.flatMap (fun p => encPacket p.id p.hdr p.data) ++ encUnbounded q.id q.hdr q.data := by
        unfold PesUnit.enc; rw [hl]
      obtain ⟨pss, h1, h2, h3⟩ := run_units e he us ⟨q.id, 0, some (PES.viewHdr q.hdr), q.data⟩
        (pos' + (encUnbounded q.id q.hdr q.data).length) (fun v hv => hw v (List.mem_cons_of_mem _ hv))
      have hn' : PES.Packet.next ⟨p', ⟨encUnbounded q.id q.hdr q.data, pos', .eop,
          ((feed e us).1, (feed e us).2.1) :: (feed e us).2.2⟩⟩ = (.ok (), ⟨⟨q.id, 0, some (PES.viewHdr q.hdr), q.data⟩,
          ⟨(feed e us).1, pos' + (encUnbounded q.id q.hdr q.data).length, (feed e us).2.1, (feed e us).2.2⟩⟩) := hn
      have hpay2 : ∀ (qs : List PES.Packet) (c : PES.Packet), c.payload = q.data →
          payloads (ps ++ c :: qs) = u.payload ++ payloads qs := by
        intro qs c hc
        unfold PesUnit.payload
        rw [hl, ← hpay]
        simp [payloads, hc]
      have hcount : ps.length + 1 + count us = count (u :: us) := by
        simp only [count, List.map_cons, List.sum_cons, hl, hlen]; simp
      cases h1 with
      | @last _ s1 s2 qs _ g1 g2 g3 =>
        refine ⟨[ps ++ _ :: qs], .last (PES.Run.append (by simp only [feed]; rw [henc]; exact hr) (.cons hn' g1)) g2 g3,
          ?_, ?_⟩
        · rw [List.map_cons, List.map_nil, hpay2 _ _ rfl]
          simp only [List.map_cons, List.map_nil] at h2
          simp only [pieces, hl, ← h2]
        · rw [← hcount, ← h3]; simp [PES.total]; omega
      | @part _ s1 s2 qs qss _ g1 g2 g3 =>
        refine ⟨(ps ++ _ :: qs) :: qss, .part (PES.Run.append (by simp only [feed]; rw [henc]; exact hr) (.cons hn' g1)) g2 g3,
          ?_, ?_⟩
        · rw [List.map_cons, hpay2 _ _ rfl]
          simp only [List.map_cons] at h2
          simp only [pieces, hl, ← h2]
        · rw [← hcount, ← h3]; simp [PES.total]; omega

theorem pieces_flatten : ∀ us : List PesUnit, (pieces us).flatten = us.flatMap (·.payload)
  | [] => rfl
  | u :: us => by
    have ih := pieces_flatten us
    unfold pieces
    cases u.last with
    | none => simp only [List.flatten_cons, ih, List.flatMap_cons]
    | some q =>
      cases h : pieces us with
      | nil => rw [h] at ih; simp only [List.flatten_nil] at ih; simp [← ih]
      | cons p ps => rw [h] at ih; simp only [List.flatten_cons] at ih ⊢; simp [← ih]

theorem pieces_open : ∀ us : List PesUnit, (∀ u ∈ us, u.last.isSome) → pieces us = [us.flatMap (·.payload)]
  | [], _ => rfl
  | u :: us, h => by
    have ih := pieces_open us (fun v hv => h v (List.mem_cons_of_mem _ hv))
    unfold pieces
    have := h u (List.mem_cons_self ..)
    cases hl : u.last with
    | none => rw [hl] at this; cases this
    | some q => rw [ih]; rfl

end Mpeg.Pipe
