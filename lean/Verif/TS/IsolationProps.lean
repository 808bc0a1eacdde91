/-
C115, C116: what the readers for one PID return if packets without payload, duplicated, damaged or scrambled packets occur.
-/
import Verif.TS.ReaderProps
set_option linter.all false
namespace Mpeg.TS
namespace Spec

/-- Every packet with the payload that the readers take for its own: for a packet without payload the last payload in front
of it in the stream, whatever the PID of that payload. -/
def shown : List UInt8 → List Pkt → List (Pkt × List UInt8)
  | _, [] => []
  | last, p :: ps =>
    let d := if p.body.hasPayload then p.body.data else last
    (p, d) :: shown d ps

/-- the last payload in front of what follows the packets -/
def lastPayload : List UInt8 → List Pkt → List UInt8
  | last, [] => last
  | last, p :: ps => lastPayload (if p.body.hasPayload then p.body.data else last) ps

/-- the bytes returned for PID `k` -/
def shownBytes (k : Nat) (l : List (Pkt × List UInt8)) : List UInt8 :=
  ((l.filter (fun x => x.1.hdr.pid == k)).map (·.2)).flatten

/-- the bytes returned for PID `k`, one unit after another -/
def shownUnits (k : Nat) : List UInt8 → List (Pkt × List Pkt) → List (List UInt8)
  | _, [] => []
  | last, g :: gs => shownBytes k (shown last (g.1 :: g.2)) :: shownUnits k (lastPayload last (g.1 :: g.2)) gs

end Spec
open Spec

theorem result_payload (p0 : Packet) (p : Pkt) :
    (result p0 p.hdr p.body).payload = if p.body.hasPayload then p.body.data else p0.payload := by
  have h := result_body p0 p.hdr p.body
  revert h
  cases p.body with
  | payload d => intro h; exact h.1
  | af a => intro h; exact h.1
  | afPayload a d => intro h; exact h.1

theorem observed_shown (k : Nat) : ∀ (ps : List Pkt) (p0 : Packet),
    payloads (isPID k) (observed p0 ps) = shownBytes k (shown p0.payload ps)
  | [], _ => rfl
  | p :: ps, p0 => by
    have h := result_payload p0 p
    have hk : isPID k (result p0 p.hdr p.body) = (p.hdr.pid == k) := by
      have := result_hdr p0 p.hdr p.body; simp [isPID, this.2.2.2.1]
    rw [observed, payloads_cons, hk, observed_shown k ps, h, shown]
    unfold shownBytes
    by_cases hp : (p.hdr.pid == k) = true
    · rw [if_pos hp, List.filter_cons_of_pos (by exact hp)]; rfl
    · rw [if_neg hp, List.filter_cons_of_neg (by exact hp)]; rfl

theorem lastOf_payload : ∀ (ps : List Pkt) (p0 : Packet), (lastOf p0 ps).payload = lastPayload p0.payload ps
  | [], _ => rfl
  | p :: ps, p0 => by rw [lastOf, lastOf_payload ps, result_payload, lastPayload]

theorem observedGroups_shown (k : Nat) : ∀ (gs : List (Pkt × List Pkt)) (p0 : Packet),
    (observedGroups p0 gs).map (unitBytes (isPID k)) = shownUnits k p0.payload gs
  | [], _ => rfl
  | g :: gs, p0 => by
    rw [observedGroups, List.map_cons, observedGroups_shown k gs, lastOf_payload, shownUnits]
    congr 1
    exact observed_shown k (g.1 :: g.2) p0

/-- **C115**, exact behaviour of the payload reader for PID `k` on every stream of well-formed packets, with and without
payload. -/
theorem C115_exact (k : Nat) (ps : List Pkt) (hps : ∀ p ∈ ps, p.WF ∧ p.body.Plain) (ns : List Nat) {fuel : Nat}
    (hf : ps.length < fuel) :
    (PR.reads { whre := isPID k } fuel ns (PR.new (BR.ofBits (ps.map encPkt).flatten))).1 =
      .ok (deliver (shownBytes k (shown [] ps)) .eof ns) := by
  have h1 := run_enc (stop := .eof) (later := []) ps Packet.new 0 hps rfl
  have h2 := next_at_end (s := ⟨lastOf Packet.new ps, ⟨[], 0 + 188 * 8 * ps.length, .eof, []⟩⟩) rfl rfl
    (by simp only; omega)
  have hc : payloads (isPID k) (observed Packet.new ps) = shownBytes k (shown [] ps) := observed_shown k ps Packet.new
  cases ns with
  | nil => rfl
  | cons n ns =>
    rw [reads_new _ rfl]
    obtain ⟨r', h3, _⟩ := reads_deliver { whre := isPID k } h2 (n :: ns)
      { PR.new (BR.ofBits (ps.map encPkt).flatten) with started := true } (observed Packet.new ps)
      ⟨rfl, rfl, h1, fun _ _ => rfl⟩ fuel (by rw [observed_length]; exact hf)
    have := congrArg Prod.fst h3
    simpa [content, PR.new, hc] using this

/-- **C115**, exact behaviour of the payload unit reader. -/
theorem C115_units_exact (k : Nat) (pre : List Pkt) (gs : List (Pkt × List Pkt))
    (hps : ∀ p ∈ pre ++ (gs.map fun g => g.1 :: g.2).flatten, p.WF ∧ p.body.Plain)
    (hpre : ∀ p ∈ pre, starts k p = false)
    (hgs : ∀ g ∈ gs, starts k g.1 = true ∧ ∀ p ∈ g.2, starts k p = false)
    (ns : List Nat) {fuel : Nat} (hf : (pre ++ (gs.map fun g => g.1 :: g.2).flatten).length < fuel) :
    (PU.reads (isPID k) fuel ns
        (PU.new (BR.ofBits ((pre ++ (gs.map fun g => g.1 :: g.2).flatten).map encPkt).flatten))).1 =
      .ok (deliverUnits .eof none (shownUnits k (lastPayload [] pre) gs).dropLast ns) := by
  have h1 := run_enc (stop := .eof) (later := []) _ Packet.new 0 hps rfl
  have h2 := next_at_end (s := ⟨lastOf Packet.new (pre ++ (gs.map fun g => g.1 :: g.2).flatten),
    ⟨[], 0 + 188 * 8 * (pre ++ (gs.map fun g => g.1 :: g.2).flatten).length, .eof, []⟩⟩) rfl rfl
    (by simp only; omega)
  have hsplit : Split (startOf (isPID k)) (observed Packet.new (pre ++ (gs.map fun g => g.1 :: g.2).flatten))
      (observed Packet.new pre) (observedGroups (lastOf Packet.new pre) gs) :=
    ⟨by rw [observed_append, observed_flat], observed_start k pre hpre _, observedGroups_ok k gs hgs _⟩
  obtain ⟨o, r', h3, h4, _⟩ := C14_units_partial (e := .eof) (isPID k) _ ⟨_, h1, h2⟩ (by decide) hsplit ns (fuel := fuel)
    (by rw [observed_length]; exact hf)
  rw [List.map_dropLast, observedGroups_shown, lastOf_payload] at h4
  subst h4
  exact congrArg Prod.fst h3

theorem shownBytes_own (k : Nat) : ∀ (ps : List Pkt) (last : List UInt8),
    (∀ p ∈ ps, p.hdr.pid = k → p.body.hasPayload = true) → shownBytes k (shown last ps) = pidBytes k ps
  | [], _, _ => rfl
  | p :: ps, last, h => by
    have ih := shownBytes_own k ps (if p.body.hasPayload then p.body.data else last)
      (fun q hq => h q (List.mem_cons_of_mem _ hq))
    unfold shownBytes pidBytes at ih ⊢
    rw [shown]
    by_cases hp : (p.hdr.pid == k) = true
    · have hb := h p (List.mem_cons_self ..) (by simpa using hp)
      rw [List.filter_cons_of_pos (by exact hp), List.filter_cons_of_pos (by exact hp), List.map_cons, List.map_cons,
        List.flatten_cons, List.flatten_cons, ih, if_pos hb]
    · rw [List.filter_cons_of_neg (by exact hp), List.filter_cons_of_neg (by exact hp), ih]

/-- **C115 (partial)**: if the packets of PID `k` carry payload, the Reads for this PID depend on the packets of this PID
only: whatever else two streams carry, in whatever order relative to them. -/
theorem C115_partial (k : Nat) (ps qs : List Pkt) (hps : ∀ p ∈ ps, p.WF ∧ p.body.Plain) (hqs : ∀ p ∈ qs, p.WF ∧ p.body.Plain)
    (h : ps.filter (fun p => p.hdr.pid == k) = qs.filter (fun p => p.hdr.pid == k))
    (hb : ∀ p ∈ ps, p.hdr.pid = k → p.body.hasPayload = true) (ns : List Nat) {fuel : Nat}
    (hf : ps.length < fuel) (hf' : qs.length < fuel) :
    (PR.reads { whre := isPID k } fuel ns (PR.new (BR.ofBits (ps.map encPkt).flatten))).1 =
      (PR.reads { whre := isPID k } fuel ns (PR.new (BR.ofBits (qs.map encPkt).flatten))).1 := by
  have hb' : ∀ p ∈ qs, p.hdr.pid = k → p.body.hasPayload = true := by
    intro p hp hk
    have : p ∈ ps.filter (fun p => p.hdr.pid == k) := by
      rw [h]; exact List.mem_filter.mpr ⟨hp, by simp [hk]⟩
    exact hb p (List.mem_filter.mp this).1 hk
  rw [C115_exact k ps hps ns hf, C115_exact k qs hqs ns hf', shownBytes_own k ps [] hb, shownBytes_own k qs [] hb']
  unfold pidBytes
  rw [h]

/-- **C115 is false**: a packet of PID `k` without payload, such as one that carries only a clock reference, makes the
readers return the payload of the packet in front of it, whatever its PID. -/
theorem C115_leak (k : Nat) (p q : Pkt) (hp : p.WF ∧ p.body.Plain) (hq : q.WF ∧ q.body.Plain) (hk : q.hdr.pid = k)
    (hj : p.hdr.pid ≠ k) (hpb : p.body.hasPayload = true) (hqb : q.body.hasPayload = false) (ns : List Nat) :
    (PR.reads { whre := isPID k } 9 ns (PR.new (BR.ofBits ([p, q].map encPkt).flatten))).1 =
      .ok (deliver p.body.data .eof ns) := by
  have hps : ∀ x ∈ [p, q], x.WF ∧ x.body.Plain := by
    intro x hx
    simp only [List.mem_cons, List.not_mem_nil, or_false] at hx
    rcases hx with rfl | rfl
    · exact hp
    · exact hq
  rw [C115_exact k [p, q] hps ns (by decide : 2 < 9)]
  simp [shown, shownBytes, hpb, hqb, hk, hj]

/-! ### C116 -/

/-- The packets agree in PID, unit start indicator and payload; error indicator, priority, scrambling control, continuity
counter and adaptation field may differ. -/
structure Spec.SamePayload (p q : Pkt) : Prop where
  pid : p.hdr.pid = q.hdr.pid
  pusi : p.hdr.pusi = q.hdr.pusi
  has : p.body.hasPayload = q.body.hasPayload
  data : p.body.data = q.body.data

theorem shownBytes_same (k : Nat) : ∀ (l : List (Pkt × Pkt)) (last : List UInt8), (∀ x ∈ l, SamePayload x.1 x.2) →
    shownBytes k (shown last (l.map (·.1))) = shownBytes k (shown last (l.map (·.2)))
  | [], _, _ => rfl
  | x :: l, last, h => by
    have hx := h x (List.mem_cons_self ..)
    have ih := shownBytes_same k l (if x.1.body.hasPayload then x.1.body.data else last)
      (fun y hy => h y (List.mem_cons_of_mem _ hy))
    simp only [List.map_cons, shown]
    rw [← hx.has, ← hx.data]
    unfold shownBytes at ih ⊢
    by_cases hp : (x.1.hdr.pid == k) = true
    · have hp' : (x.2.hdr.pid == k) = true := by rw [← hx.pid]; exact hp
      rw [List.filter_cons_of_pos (by exact hp), List.filter_cons_of_pos (by exact hp'), List.map_cons, List.map_cons,
        List.flatten_cons, List.flatten_cons, ih]
    · have hp' : ¬ (x.2.hdr.pid == k) = true := by rw [← hx.pid]; exact hp
      rw [List.filter_cons_of_neg (by exact hp), List.filter_cons_of_neg (by exact hp'), ih]

theorem lastPayload_same : ∀ (l : List (Pkt × Pkt)) (last : List UInt8), (∀ x ∈ l, SamePayload x.1 x.2) →
    lastPayload last (l.map (·.1)) = lastPayload last (l.map (·.2))
  | [], _, _ => rfl
  | x :: l, last, h => by
    have hx := h x (List.mem_cons_self ..)
    simp only [List.map_cons, lastPayload]
    rw [← hx.has, ← hx.data]
    exact lastPayload_same l _ (fun y hy => h y (List.mem_cons_of_mem _ hy))

theorem shownUnits_same (k : Nat) : ∀ (gs : List ((Pkt × Pkt) × List (Pkt × Pkt))) (last : List UInt8),
    (∀ g ∈ gs, ∀ x ∈ g.1 :: g.2, SamePayload x.1 x.2) →
    shownUnits k last (gs.map fun g => (g.1.1, g.2.map (·.1))) = shownUnits k last (gs.map fun g => (g.1.2, g.2.map (·.2)))
  | [], _, _ => rfl
  | g :: gs, last, h => by
    have hg := h g (List.mem_cons_self ..)
    simp only [List.map_cons, shownUnits]
    have h1 := shownBytes_same k (g.1 :: g.2) last hg
    have h2 := lastPayload_same (g.1 :: g.2) last hg
    rw [List.map_cons, List.map_cons] at h1 h2
    rw [h1, h2]
    congr 1
    exact shownUnits_same k gs _ (fun y hy => h y (List.mem_cons_of_mem _ hy))

/-- every list, cut before the elements with `f` -/
theorem exists_cut {α : Type} (f : α → Bool) : ∀ l : List α, ∃ (pre : List α) (gs : List (α × List α)),
    l = pre ++ (gs.map fun g => g.1 :: g.2).flatten ∧ (∀ x ∈ pre, f x = false) ∧
    ∀ g ∈ gs, f g.1 = true ∧ ∀ x ∈ g.2, f x = false
  | [] => ⟨[], [], rfl, fun _ h => (by cases h), fun _ h => (by cases h)⟩
  | a :: l => by
    obtain ⟨pre, gs, h1, h2, h3⟩ := exists_cut f l
    by_cases ha : f a = true
    · refine ⟨[], (a, pre) :: gs, by simp [h1], fun _ h => (by cases h), fun g hg => ?_⟩
      rcases List.mem_cons.mp hg with rfl | hg
      · exact ⟨ha, h2⟩
      · exact h3 g hg
    · refine ⟨a :: pre, gs, by simp [h1], fun x hx => ?_, h3⟩
      rcases List.mem_cons.mp hx with rfl | hx
      · simpa using ha
      · exact h2 x hx

/-- **C116 (partial)**: what both readers return depends on PID, unit start indicator and payload of the packets only, not
on the error indicator, the scrambling control, the priority, the continuity counter or the adaptation field.  (`l` is the
list of the packets of two streams, side by side.) -/
theorem C116_partial (k : Nat) (l : List (Pkt × Pkt)) (hl : ∀ x ∈ l, SamePayload x.1 x.2)
    (h1 : ∀ x ∈ l, x.1.WF ∧ x.1.body.Plain) (h2 : ∀ x ∈ l, x.2.WF ∧ x.2.body.Plain) (ns : List Nat) {fuel : Nat}
    (hf : l.length < fuel) :
    (PR.reads { whre := isPID k } fuel ns (PR.new (BR.ofBits ((l.map (·.1)).map encPkt).flatten))).1 =
      (PR.reads { whre := isPID k } fuel ns (PR.new (BR.ofBits ((l.map (·.2)).map encPkt).flatten))).1 ∧
    (PU.reads (isPID k) fuel ns (PU.new (BR.ofBits ((l.map (·.1)).map encPkt).flatten))).1 =
      (PU.reads (isPID k) fuel ns (PU.new (BR.ofBits ((l.map (·.2)).map encPkt).flatten))).1 := by
  have w1 : ∀ p ∈ l.map (·.1), p.WF ∧ p.body.Plain := by
    intro p hp; obtain ⟨x, hx, rfl⟩ := List.mem_map.mp hp; exact h1 x hx
  have w2 : ∀ p ∈ l.map (·.2), p.WF ∧ p.body.Plain := by
    intro p hp; obtain ⟨x, hx, rfl⟩ := List.mem_map.mp hp; exact h2 x hx
  constructor
  · rw [C115_exact k _ w1 ns (by rw [List.length_map]; exact hf), C115_exact k _ w2 ns (by rw [List.length_map]; exact hf),
      shownBytes_same k l [] hl]
  · obtain ⟨pre, gs, rfl, c2, c3⟩ := exists_cut (fun x : Pkt × Pkt => starts k x.1) l
    have hst : ∀ x : Pkt × Pkt, SamePayload x.1 x.2 → starts k x.2 = starts k x.1 := by
      intro x hx; unfold starts; rw [hx.pid, hx.pusi]
    have hmem : ∀ g ∈ gs, ∀ x ∈ g.1 :: g.2, x ∈ pre ++ (gs.map fun g => g.1 :: g.2).flatten := by
      intro g hg x hx
      exact List.mem_append_right _ (List.mem_flatten.mpr ⟨_, List.mem_map.mpr ⟨g, hg, rfl⟩, hx⟩)
    have e1 : (pre ++ (gs.map fun g => g.1 :: g.2).flatten).map (·.1) =
        pre.map (·.1) ++ ((gs.map fun g => (g.1.1, g.2.map (·.1))).map fun g => g.1 :: g.2).flatten := by
      simp [List.map_flatten, Function.comp_def]
    have e2 : (pre ++ (gs.map fun g => g.1 :: g.2).flatten).map (·.2) =
        pre.map (·.2) ++ ((gs.map fun g => (g.1.2, g.2.map (·.2))).map fun g => g.1 :: g.2).flatten := by
      simp [List.map_flatten, Function.comp_def]
    rw [e1] at w1 ⊢
    rw [e2] at w2 ⊢
    rw [C115_units_exact k _ _ w1 ?_ ?_ ns (by rw [← e1, List.length_map]; exact hf),
      C115_units_exact k _ _ w2 ?_ ?_ ns (by rw [← e2, List.length_map]; exact hf),
      lastPayload_same pre [] (fun x hx => hl x (List.mem_append_left _ hx)),
      shownUnits_same k gs _ (fun g hg x hx => hl x (hmem g hg x hx))]
    · intro p hp
      obtain ⟨x, hx, rfl⟩ := List.mem_map.mp hp
      rw [hst x (hl x (List.mem_append_left _ hx))]; exact c2 x hx
    · intro g hg
      obtain ⟨y, hy, rfl⟩ := List.mem_map.mp hg
      refine ⟨?_, fun p hp => ?_⟩
      · show starts k y.1.2 = true
        rw [hst y.1 (hl _ (hmem y hy _ (List.mem_cons_self ..)))]; exact (c3 y hy).1
      · obtain ⟨x, hx, rfl⟩ := List.mem_map.mp hp
        rw [hst x (hl _ (hmem y hy _ (List.mem_cons_of_mem _ hx)))]; exact (c3 y hy).2 x hx
    · intro p hp
      obtain ⟨x, hx, rfl⟩ := List.mem_map.mp hp
      exact c2 x hx
    · intro g hg
      obtain ⟨y, hy, rfl⟩ := List.mem_map.mp hg
      refine ⟨(c3 y hy).1, fun p hp => ?_⟩
      obtain ⟨x, hx, rfl⟩ := List.mem_map.mp hp
      exact (c3 y hy).2 x hx

theorem pidBytes_append (k : Nat) (a b : List Pkt) : pidBytes k (a ++ b) = pidBytes k a ++ pidBytes k b := by
  simp [pidBytes]

theorem pidBytes_cons {k : Nat} {p : Pkt} (h : p.hdr.pid = k) (b : List Pkt) : pidBytes k (p :: b) = p.body.data ++ pidBytes k b := by
  simp [pidBytes, h]

/-- **C116 is false**: a packet that is sent twice, which the standard allows (2.4.3.3), is returned twice, in every
stream. -/
theorem C116_duplicate (k : Nat) (a b : List Pkt) (p : Pkt) (hk : p.hdr.pid = k)
    (h : ∀ x ∈ a ++ p :: b, x.WF ∧ x.body.Plain) (hb : ∀ x ∈ a ++ p :: b, x.hdr.pid = k → x.body.hasPayload = true)
    (ns : List Nat) {fuel : Nat} (hf : (a ++ p :: b).length + 1 < fuel) :
    (PR.reads { whre := isPID k } fuel ns (PR.new (BR.ofBits ((a ++ p :: b).map encPkt).flatten))).1 =
      .ok (deliver (pidBytes k a ++ (p.body.data ++ pidBytes k b)) .eof ns) ∧
    (PR.reads { whre := isPID k } fuel ns (PR.new (BR.ofBits ((a ++ p :: p :: b).map encPkt).flatten))).1 =
      .ok (deliver (pidBytes k a ++ (p.body.data ++ (p.body.data ++ pidBytes k b))) .eof ns) := by
  have hm : ∀ x, x ∈ a ++ p :: p :: b → x ∈ a ++ p :: b := by
    intro x hx
    simp only [List.mem_append, List.mem_cons] at hx ⊢
    rcases hx with h | h | h | h
    · exact .inl h
    · exact .inr (.inl h)
    · exact .inr (.inl h)
    · exact .inr (.inr h)
  have hlen : (a ++ p :: p :: b).length = (a ++ p :: b).length + 1 := by simp; omega
  rw [C115_exact k _ h ns (by omega), C115_exact k _ (fun x hx => h x (hm x hx)) ns (by omega),
    shownBytes_own k _ [] hb, shownBytes_own k _ [] (fun x hx => hb x (hm x hx)), pidBytes_append, pidBytes_append,
    pidBytes_cons hk, pidBytes_cons hk, pidBytes_cons hk]
  exact ⟨rfl, rfl⟩

/-- **C116 is false** for lost packets too: the Reads go on behind the gap without a report, although the continuity
counters tell. -/
theorem C116_gap (k : Nat) (a b : List Pkt) (h : ∀ x ∈ a ++ b, x.WF ∧ x.body.Plain)
    (hb : ∀ x ∈ a ++ b, x.hdr.pid = k → x.body.hasPayload = true) (ns : List Nat) {fuel : Nat} (hf : (a ++ b).length < fuel) :
    (PR.reads { whre := isPID k } fuel ns (PR.new (BR.ofBits ((a ++ b).map encPkt).flatten))).1 =
      .ok (deliver (pidBytes k a ++ pidBytes k b) .eof ns) := by
  rw [C115_exact k _ h ns hf, shownBytes_own k _ [] hb, pidBytes_append]

/-! ### The hypotheses can be met -/

/-- a packet of PID 0x21 that carries a clock reference and no payload -/
def clockOnly : Pkt := ⟨⟨false, false, false, 0x21, 0, 0⟩,
  .af (some ⟨false, false, false, some ⟨5, 0, 7⟩, none, none, none, none, List.replicate 176 255⟩)⟩
/-- a packet of PID 0x22 with 184 bytes of payload -/
def otherPid : Pkt := ⟨⟨false, true, false, 0x22, 0, 0⟩, .payload (List.replicate 184 7)⟩
/-- the same, damaged, scrambled and with another counter -/
def otherPid' : Pkt := ⟨⟨true, true, false, 0x22, 3, 9⟩, .payload (List.replicate 184 7)⟩

theorem clockOnly_wf : clockOnly.WF ∧ clockOnly.body.Plain := by
  refine ⟨⟨by decide, ⟨⟨⟨?_, fun c h => (by cases h), fun c h => (by cases h)⟩, by decide +kernel⟩, by decide +kernel⟩⟩, fun e h => (by cases h)⟩
  intro c h
  cases h
  exact ⟨by decide, by decide⟩

theorem otherPid_wf : otherPid.WF ∧ otherPid.body.Plain := ⟨⟨by decide, List.length_replicate⟩, trivial⟩

/-- The payload of PID 0x22 is returned for PID 0x21. -/
theorem C115_false : (PR.reads { whre := isPID 0x21 } 9 [200] (PR.new (BR.ofBits ([otherPid, clockOnly].map encPkt).flatten))).1 =
    .ok [(List.replicate 184 7, some .eof)] := by
  rw [C115_leak 0x21 otherPid clockOnly otherPid_wf clockOnly_wf rfl (by decide) rfl rfl [200]]
  have : deliver otherPid.body.data .eof [200] = [(List.replicate 184 7, some .eof)] := by decide +kernel
  rw [this]

/-- Streams in which PID 0x22 is interleaved differently. -/
example : ∀ x ∈ [otherPid, clockOnly, otherPid, clockOnly], x.WF ∧ x.body.Plain := by
  intro x hx
  simp only [List.mem_cons, List.not_mem_nil, or_false] at hx
  rcases hx with rfl | rfl | rfl | rfl
  · exact otherPid_wf
  · exact clockOnly_wf
  · exact otherPid_wf
  · exact clockOnly_wf

example : SamePayload otherPid otherPid' ∧ otherPid'.WF ∧ otherPid ≠ otherPid' :=
  ⟨⟨rfl, rfl, rfl, rfl⟩, ⟨by decide, List.length_replicate⟩, fun h => (by cases h)⟩

end Mpeg.TS
