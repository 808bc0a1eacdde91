/-
Lemmas about the payload unit reader.
-/
import Verif.TS.ReaderLemmas
set_option linter.all false
namespace Mpeg.TS
open Spec

/-- every packet sequence splits into a prefix without start and units -/
theorem exists_split (start : Packet → Bool) (ps : List Packet) : ∃ pre gs, Split start ps pre gs := by
  induction ps with
  | nil => exact ⟨[], [], rfl, by simp, by simp⟩
  | cons p ps ih =>
    obtain ⟨pre, gs, h1, h2, h3⟩ := ih
    cases hp : start p with
    | true =>
      refine ⟨[], (p, pre) :: gs, by simp [h1], by simp, ?_⟩
      intro g hg
      rcases List.mem_cons.mp hg with rfl | hg
      · exact ⟨hp, h2⟩
      · exact h3 g hg
    | false =>
      refine ⟨p :: pre, gs, by simp [h1], ?_, h3⟩
      intro q hq
      rcases List.mem_cons.mp hq with rfl | hq
      · exact hp
      · exact h2 q hq

variable {w : Tester}

theorem collect_unit {s s1 s2 : St} {qs : List Packet} (h : Run s qs s1)
    (hq : ∀ p ∈ qs, (w.and isPayloadUnitStart) p = false)
    (h2 : Packet.next s1 = (.ok (), s2)) (hs : (w.and isPayloadUnitStart) s2.pkt = true) :
    ∀ (f : Nat) (r : PU), r.st = s → PU.collect w (f + 1 + qs.length) r =
      (.ok none, { r with st := s2, buffer := r.buffer ++ payloads w (s.pkt :: qs) }) := by
  induction h with
  | nil s =>
    intro f r hr
    subst hr
    rw [payloads_cons]
    by_cases hw : w r.st.pkt <;> simp [PU.collect, hw, h2, hs]
  | @cons s sa sb qs h hrun ih =>
    intro f r hr
    subst hr
    rw [List.length_cons, ← Nat.add_assoc, payloads_cons]
    have hsa := hq sa.pkt (by simp)
    have ih := ih (fun p hp => hq p (by simp [hp])) h2 f
    by_cases hw : w r.st.pkt
    · simp [PU.collect, hw, h, hsa]
      rw [ih _ rfl]
      simp
    · simp [PU.collect, hw, h, hsa]
      rw [ih _ rfl]

theorem collect_end {s s1 s2 : St} {qs : List Packet} (h : Run s qs s1)
    (hq : ∀ p ∈ qs, (w.and isPayloadUnitStart) p = false) {e : Err}
    (h2 : Packet.next s1 = (.err e, s2)) :
    ∀ (f : Nat) (r : PU), r.st = s → PU.collect w (f + 1 + qs.length) r =
      (.ok (some e), { r with st := s2, buffer := r.buffer ++ payloads w (s.pkt :: qs) }) := by
  induction h with
  | nil s =>
    intro f r hr
    subst hr
    rw [payloads_cons]
    by_cases hw : w r.st.pkt <;> simp [PU.collect, hw, h2]
  | @cons s sa sb qs h hrun ih =>
    intro f r hr
    subst hr
    rw [List.length_cons, ← Nat.add_assoc, payloads_cons]
    have hsa := hq sa.pkt (by simp)
    have ih := ih (fun p hp => hq p (by simp [hp])) h2 f
    by_cases hw : w r.st.pkt
    · simp [PU.collect, hw, h, hsa]
      rw [ih _ rfl]
      simp
    · simp [PU.collect, hw, h, hsa]
      rw [ih _ rfl]

theorem seek_end {s s1 s2 : St} {qs : List Packet} (h : Run s qs s1)
    (hs : (w.and isPayloadUnitStart) s.pkt = false)
    (hq : ∀ p ∈ qs, (w.and isPayloadUnitStart) p = false) {e : Err}
    (h2 : Packet.next s1 = (.err e, s2)) :
    ∀ (f : Nat) (r : PU), r.st = s → PU.seek w (f + 1 + qs.length) r =
      (.ok (some e), { r with st := s2 }) := by
  induction h with
  | nil s =>
    intro f r hr
    subst hr
    simp [PU.seek, hs, h2]
  | @cons s sa sb qs h hrun ih =>
    intro f r hr
    subst hr
    rw [List.length_cons, ← Nat.add_assoc]
    have hsa := hq sa.pkt (by simp)
    have ih := ih hsa (fun p hp => hq p (by simp [hp])) h2 f
    simp [PU.seek, h, hs]
    rw [ih _ rfl]

theorem seek_unit {s s1 s2 : St} {qs : List Packet} (h : Run s qs s1)
    (hs : (w.and isPayloadUnitStart) s.pkt = false)
    (hq : ∀ p ∈ qs, (w.and isPayloadUnitStart) p = false)
    (h2 : Packet.next s1 = (.ok (), s2)) (hs2 : (w.and isPayloadUnitStart) s2.pkt = true) :
    ∀ (f : Nat) (r : PU), r.st = s → PU.seek w (f + 2 + qs.length) r =
      (.ok none, { r with st := s2 }) := by
  induction h with
  | nil s =>
    intro f r hr
    subst hr
    simp [PU.seek, hs, h2, hs2]
  | @cons s sa sb qs h hrun ih =>
    intro f r hr
    subst hr
    rw [List.length_cons, ← Nat.add_assoc]
    have hsa := hq sa.pkt (by simp)
    have ih := ih hsa (fun p hp => hq p (by simp [hp])) h2 f
    simp [PU.seek, h, hs]
    rw [ih _ rfl]

/-- The packets of a list of groups. -/
def flat (gs : List Group) : List Packet := (gs.map fun g => g.1 :: g.2).flatten

/-- A reader positioned on the start packet of `g`, with `g.2` and `gs` ahead. -/
structure At (w : Tester) (r : PU) (g : Group) (gs : List Group) (s' : St) : Prop where
  started : r.started = true
  pkt : r.st.pkt = g.1
  run : Run r.st (g.2 ++ flat gs) s'
  mine : ∀ p ∈ g.2, (w.and isPayloadUnitStart) p = false
  ok : ∀ g ∈ gs, (w.and isPayloadUnitStart) g.1 = true ∧
    ∀ p ∈ g.2, (w.and isPayloadUnitStart) p = false

theorem Run.cons_inv {s s' : St} {p : Packet} {ps : List Packet} (h : Run s (p :: ps) s') :
    ∃ s1, Packet.next s = (.ok (), s1) ∧ s1.pkt = p ∧ Run s1 ps s' := by
  generalize hq : p :: ps = qs at h
  cases h with
  | nil s => simp at hq
  | cons h1 h2 =>
    simp only [List.cons.injEq] at hq
    exact ⟨_, h1, hq.1.symm, hq.2 ▸ h2⟩

theorem flat_cons (g : Group) (gs : List Group) : flat (g :: gs) = g.1 :: (g.2 ++ flat gs) := by
  simp [flat]

theorem fill_at {r : PU} {g h : Group} {gs : List Group} {s' : St} (ha : At w r g (h :: gs) s')
    {fuel : Nat} (hf : (g.2 ++ flat (h :: gs)).length < fuel) :
    ∃ st, PU.fill w fuel r = (.ok none, { r with st := st, buffer := r.buffer ++ unitBytes w g }) ∧
      ∀ b y, At w { r with st := st, buffer := b, ready := y } h gs s' := by
  obtain ⟨s1, h1, h2⟩ := Run.split ha.run
  rw [flat_cons] at h2 hf
  simp only [List.length_append, List.length_cons] at hf
  obtain ⟨s2, h3, h4, h5⟩ := h2.cons_inv
  have hok := ha.ok h (by simp)
  obtain ⟨f, rfl⟩ : ∃ f, fuel = f + 1 + g.2.length := ⟨fuel - 1 - g.2.length, by omega⟩
  refine ⟨s2, ?_, ?_⟩
  · unfold PU.fill
    simp only [ha.started, if_true]
    rw [collect_unit h1 ha.mine h3 (h4 ▸ hok.1) f r rfl, ha.pkt, ha.started]
    rfl
  · intro b y
    exact ⟨ha.started, h4, h5, hok.2, fun g hg => ha.ok g (by simp [hg])⟩

theorem fill_last {r : PU} {g : Group} {s' s'' : St} {e : Err} (ha : At w r g [] s')
    (he : Packet.next s' = (.err e, s'')) {fuel : Nat} (hf : g.2.length < fuel) :
    ∃ r', PU.fill w fuel r = (.ok (some e), r') := by
  have h1 := ha.run
  simp only [flat, List.map_nil, List.flatten_nil, List.append_nil] at h1
  obtain ⟨f, rfl⟩ : ∃ f, fuel = f + 1 + g.2.length := ⟨fuel - 1 - g.2.length, by omega⟩
  unfold PU.fill
  simp only [ha.started, if_true]
  exact ⟨_, collect_end h1 ha.mine he f r rfl⟩

theorem fill_new {r : PU} (hst : r.started = false) (hb : r.buffer = [])
    (hp : (w.and isPayloadUnitStart) r.st.pkt = false) {pre : List Packet}
    {g h : Group} {gs : List Group} {s' : St}
    (hrun : Run r.st (pre ++ flat (g :: h :: gs)) s')
    (hpre : ∀ p ∈ pre, (w.and isPayloadUnitStart) p = false)
    (hok : ∀ x ∈ g :: h :: gs, (w.and isPayloadUnitStart) x.1 = true ∧
      ∀ p ∈ x.2, (w.and isPayloadUnitStart) p = false)
    {fuel : Nat} (hf : (pre ++ flat (g :: h :: gs)).length < fuel) :
    ∃ st, PU.fill w fuel r =
        (.ok none, { r with started := true, st := st, buffer := unitBytes w g }) ∧
      ∀ b y, At w { r with started := true, st := st, buffer := b, ready := y } h gs s' := by
  obtain ⟨s1, h1, h2⟩ := Run.split hrun
  rw [flat_cons] at h2 hf
  obtain ⟨s2, h3, h4, h5⟩ := h2.cons_inv
  simp only [List.length_append, List.length_cons] at hf
  have hg := hok g (by simp)
  have hfl : (flat (h :: gs)).length ≥ 1 := by rw [flat_cons]; simp
  obtain ⟨f, rfl⟩ : ∃ f, fuel = f + 2 + pre.length := ⟨fuel - 2 - pre.length, by omega⟩
  have hsk := seek_unit h1 hp hpre h3 (h4 ▸ hg.1) f { r with started := true } rfl
  have hat : At w { r with started := true, st := s2 } g (h :: gs) s' :=
    ⟨rfl, h4, h5, hg.2, fun x hx => hok x (by simp only [List.mem_cons] at hx ⊢; right; exact hx)⟩
  obtain ⟨st, hfill, hat'⟩ := fill_at hat (fuel := f + 2 + pre.length)
    (by simp only [List.length_append]; omega)
  refine ⟨st, ?_, hat'⟩
  unfold PU.fill at hfill ⊢
  simp only [hst, Bool.false_eq_true, if_false, if_true] at hfill ⊢
  rw [Go.bind_ok hsk]
  simp only
  rw [hfill, hb, List.nil_append]

theorem fill_new_err {r : PU} (hst : r.started = false)
    (hp : (w.and isPayloadUnitStart) r.st.pkt = false) {pre : List Packet}
    {gs : List Group} {s' s'' : St} {e : Err}
    (hrun : Run r.st (pre ++ flat gs) s') (he : Packet.next s' = (.err e, s''))
    (hpre : ∀ p ∈ pre, (w.and isPayloadUnitStart) p = false)
    (hok : ∀ x ∈ gs, (w.and isPayloadUnitStart) x.1 = true ∧
      ∀ p ∈ x.2, (w.and isPayloadUnitStart) p = false)
    (hgs : gs.length ≤ 1)
    {fuel : Nat} (hf : (pre ++ flat gs).length < fuel) :
    ∃ r', PU.fill w fuel r = (.ok (some e), r') := by
  obtain ⟨s1, h1, h2⟩ := Run.split hrun
  cases gs with
  | nil =>
    have h2' : s1 = s' := by cases h2; rfl
    subst h2'
    simp only [flat, List.map_nil, List.flatten_nil, List.append_nil] at hf
    obtain ⟨f, rfl⟩ : ∃ f, fuel = f + 1 + pre.length := ⟨fuel - 1 - pre.length, by omega⟩
    have := seek_end h1 hp hpre he f { r with started := true } rfl
    unfold PU.fill
    simp only [hst, Bool.false_eq_true, if_false]
    exact ⟨_, by rw [Go.bind_ok this]; rfl⟩
  | cons g gs =>
    have : gs = [] := List.length_eq_zero_iff.mp (by simp only [List.length_cons] at hgs; omega)
    subst this
    rw [flat_cons] at h2 hf
    obtain ⟨s2, h3, h4, h5⟩ := h2.cons_inv
    simp only [flat, List.map_nil, List.flatten_nil, List.append_nil, List.length_append, List.length_cons] at hf
    have hg := hok g (by simp)
    obtain ⟨f, rfl⟩ : ∃ f, fuel = f + 2 + pre.length := ⟨fuel - 2 - pre.length, by omega⟩
    have hsk := seek_unit h1 hp hpre h3 (h4 ▸ hg.1) f { r with started := true } rfl
    have hat : At w { r with started := true, st := s2 } g [] s' :=
      ⟨rfl, h4, h5, hg.2, fun x hx => by simp at hx⟩
    obtain ⟨r', hfill⟩ := fill_last hat he (fuel := f + 2 + pre.length) (by omega)
    refine ⟨r', ?_⟩
    unfold PU.fill at hfill ⊢
    simp only [hst, Bool.false_eq_true, if_false, if_true] at hfill ⊢
    rw [Go.bind_ok hsk]
    exact hfill

/-- where the reader is: its source will still deliver the units `us` -/
inductive Src (w : Tester) (s' : St) (fuel : Nat) : PU → List (List UInt8) → Prop
  | new {r : PU} {pre : List Packet} {gs : List Group} (hst : r.started = false)
      (hp : (w.and isPayloadUnitStart) r.st.pkt = false)
      (hrun : Run r.st (pre ++ flat gs) s')
      (hpre : ∀ p ∈ pre, (w.and isPayloadUnitStart) p = false)
      (hok : ∀ x ∈ gs, (w.and isPayloadUnitStart) x.1 = true ∧
        ∀ p ∈ x.2, (w.and isPayloadUnitStart) p = false)
      (hf : (pre ++ flat gs).length < fuel) : Src w s' fuel r (gs.dropLast.map (unitBytes w))
  | at {r : PU} {g : Group} {gs : List Group} (ha : At w r g gs s')
      (hf : (g.2 ++ flat gs).length < fuel) : Src w s' fuel r ((g :: gs).dropLast.map (unitBytes w))

theorem fill_src {s' s'' : St} {e : Err} (he : Packet.next s' = (.err e, s'')) {fuel : Nat} {r : PU}
    {us : List (List UInt8)} (hb : r.buffer = []) (h : Src w s' fuel r us) :
    (us = [] ∧ ∃ r', PU.fill w fuel r = (.ok (some e), r')) ∨
    ∃ u us' r', us = u :: us' ∧ PU.fill w fuel r = (.ok none, r') ∧ r'.buffer = u ∧
      ∀ b y, Src w s' fuel { r' with buffer := b, ready := y } us' := by
  cases h with
  | @new pre gs hst hp hrun hpre hok hf =>
    match gs, hrun, hok, hf with
    | [], hrun, hok, hf =>
      left
      exact ⟨rfl, fill_new_err hst hp hrun he hpre hok (by simp) hf⟩
    | [g], hrun, hok, hf =>
      left
      exact ⟨rfl, fill_new_err hst hp hrun he hpre hok (by simp) hf⟩
    | g :: h :: gs, hrun, hok, hf =>
      right
      obtain ⟨st, h1, h2⟩ := fill_new hst hb hp hrun hpre hok hf
      refine ⟨_, _, _, rfl, h1, rfl, ?_⟩
      intro b y
      refine Src.at (h2 b y) ?_
      rw [flat_cons, flat_cons] at hf
      simp only [List.length_append, List.length_cons] at hf ⊢
      omega
  | @«at» g gs ha hf =>
    match gs, ha, hf with
    | [], ha, hf =>
      left
      exact ⟨rfl, fill_last ha he (by simpa [flat] using hf)⟩
    | h :: gs, ha, hf =>
      right
      obtain ⟨st, h1, h2⟩ := fill_at ha hf
      refine ⟨_, _, _, rfl, h1, by simp [hb], ?_⟩
      intro b y
      refine Src.at (h2 b y) ?_
      rw [flat_cons] at hf
      simp only [List.length_append, List.length_cons] at hf ⊢
      omega

theorem pu_reads_cons_go {fuel n : Nat} {ns : List Nat} {r r' r'' : PU} {o : List UInt8 × Option Err}
    {os : List (List UInt8 × Option Err)}
    (h : PU.read w fuel n r = (.ok o, r')) (ho : o.2 = none ∨ o.2 = some .eop)
    (h' : PU.reads w fuel ns r' = (.ok os, r'')) :
    PU.reads w fuel (n :: ns) r = (.ok (o :: os), r'') := by
  rw [PU.reads, Go.bind_ok h]
  simp only [ho, if_true]
  rw [Go.bind_ok h']
  rfl
theorem pu_reads_cons_stop {fuel n : Nat} {ns : List Nat} {r r' : PU} {o : List UInt8 × Option Err}
    (h : PU.read w fuel n r = (.ok o, r')) (ho : ¬ (o.2 = none ∨ o.2 = some .eop)) :
    PU.reads w fuel (n :: ns) r = (.ok [o], r') := by
  rw [PU.reads, Go.bind_ok h]
  simp only [ho, if_false]
  rfl

/-- abstraction of the reader state -/
inductive Abs (w : Tester) (s' : St) (fuel : Nat) : PU → Option (List UInt8) → List (List UInt8) → Prop
  | ready {r : PU} {us : List (List UInt8)} (h : r.ready = true) (hs : Src w s' fuel r us)
      (hs' : ∀ b y, Src w s' fuel { r with buffer := b, ready := y } us) : Abs w s' fuel r (some r.buffer) us
  | drained {r : PU} {us : List (List UInt8)} (h : r.ready = false) (hb : r.buffer = [])
      (hs : Src w s' fuel r us) : Abs w s' fuel r none us

theorem pu_reads {s' s'' : St} {e : Err} (he : Packet.next s' = (.err e, s'')) (hne : e ≠ .eop) {fuel : Nat} :
    ∀ (ns : List Nat) (r : PU) (cur : Option (List UInt8)) (us : List (List UInt8)),
      Abs w s' fuel r cur us →
      ∃ r', PU.reads w fuel ns r = (.ok (deliverUnits e cur us ns), r') := by
  intro ns
  induction ns with
  | nil => intro r cur us h; exact ⟨r, by cases cur <;> cases us <;> rfl⟩
  | cons n ns ih =>
    -- reading from a ready reader
    have give : ∀ (r : PU) (us : List (List UInt8)), r.ready = true →
        (∀ b y, Src w s' fuel { r with buffer := b, ready := y } us) →
        ∃ o r', PU.give n r = (.ok o, r') ∧ (o.2 = none ∨ o.2 = some .eop) ∧
          ∃ r'', PU.reads w fuel ns r' = (.ok (deliverUnits e
              (if n ≤ r.buffer.length then some (r.buffer.drop n) else none) us ns), r'') ∧
            o = if n ≤ r.buffer.length then (r.buffer.take n, none) else (r.buffer, some .eop) := by
      intro r us hr hs
      unfold PU.give
      by_cases hn : n ≤ r.buffer.length
      · simp only [hn, if_true]
        refine ⟨_, _, rfl, .inl rfl, ?_⟩
        obtain ⟨r'', h⟩ := ih { r with buffer := r.buffer.drop n } (some (r.buffer.drop n)) us
          (Abs.ready hr (by have := hs (r.buffer.drop n) r.ready; exact this) hs)
        exact ⟨r'', h, rfl⟩
      · simp only [hn, if_false]
        refine ⟨_, _, rfl, .inr rfl, ?_⟩
        obtain ⟨r'', h⟩ := ih { r with buffer := [], ready := false } none us
          (Abs.drained rfl rfl (hs [] false))
        exact ⟨r'', h, rfl⟩
    intro r cur us h
    cases h with
    | ready hr hs hs' =>
      obtain ⟨o, r1, h1, h2, r2, h3, h4⟩ := give r us hr hs'
      have hread : PU.read w fuel n r = (.ok o, r1) := by
        unfold PU.read; simp only [hr, if_true]; exact h1
      refine ⟨r2, ?_⟩
      rw [pu_reads_cons_go hread h2 h3, h4]
      conv => rhs; unfold deliverUnits
      split <;> rfl
    | drained hr hb hs =>
      rcases fill_src he hb hs with ⟨rfl, r1, h1⟩ | ⟨u, us', r1, rfl, h1, h2, h3⟩
      · have hread : PU.read w fuel n r = (.ok ([], some e), r1) := by
          unfold PU.read; simp only [hr, Bool.false_eq_true, if_false]
          rw [Go.bind_ok h1]; rfl
        refine ⟨r1, ?_⟩
        rw [pu_reads_cons_stop hread (by simp [hne])]
        rfl
      · obtain ⟨o, r2, h4, h5, r3, h6, h7⟩ := give { r1 with ready := true } us' rfl (fun b y => h3 b y)
        have hread : PU.read w fuel n r = (.ok o, r2) := by
          unfold PU.read; simp only [hr, Bool.false_eq_true, if_false]
          rw [Go.bind_ok h1]
          exact h4
        refine ⟨r3, ?_⟩
        rw [pu_reads_cons_go hread h5 h6, h7]
        simp only [h2]
        conv => rhs; unfold deliverUnits
        split <;> rfl

end Mpeg.TS
