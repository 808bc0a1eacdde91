/-
Consequences of the delivery specifications, and the packets of an encoded stream.
-/
import Verif.TS.UnitLemmas
set_option linter.all false
namespace Mpeg.TS
open Spec

namespace Spec

theorem allBytes_cons (o : List UInt8 × Option Err) (os : List (List UInt8 × Option Err)) :
    allBytes (o :: os) = o.1 ++ allBytes os := by simp [allBytes]

theorem deliver_bytes (e : Err) : ∀ (ns : List Nat) (c : List UInt8),
    allBytes (deliver c e ns) = c.take ns.sum
  | [], c => by simp [deliver, allBytes]
  | n :: ns, c => by
    unfold deliver
    split
    · rename_i h
      rw [allBytes_cons, deliver_bytes e ns, List.sum_cons, List.take_add]
    · rename_i h
      simp only [allBytes, List.map_cons, List.map_nil, List.flatten_cons, List.flatten_nil, List.append_nil,
        List.sum_cons]
      rw [List.take_of_length_le (by omega)]

theorem deliver_ok (e : Err) : ∀ (ns : List Nat) (c : List UInt8), ns.sum ≤ c.length →
    (deliver c e ns).map (fun o => (o.1.length, o.2)) = ns.map (fun n => (n, none))
  | [], c, _ => rfl
  | n :: ns, c, h => by
    simp only [List.sum_cons] at h
    have hn : n ≤ c.length := by omega
    unfold deliver
    rw [if_pos hn]
    simp only [List.map_cons, List.length_take, Nat.min_eq_left hn]
    rw [deliver_ok e ns _ (by simp; omega)]

theorem deliver_end (e : Err) : ∀ (ns : List Nat) (c : List UInt8), c.length < ns.sum →
    ∃ init d, deliver c e ns = init ++ [(d, some e)] ∧ ∀ o ∈ init, o.2 = none
  | [], c, h => by simp at h
  | n :: ns, c, h => by
    unfold deliver
    split
    · rename_i hn
      simp only [List.sum_cons] at h
      obtain ⟨i, d, h1, h2⟩ := deliver_end e ns (c.drop n) (by simp; omega)
      refine ⟨(c.take n, none) :: i, d, by rw [h1]; rfl, ?_⟩
      intro o ho
      rcases List.mem_cons.mp ho with rfl | ho
      · rfl
      · exact h2 o ho
    · exact ⟨[], c, rfl, by simp⟩

theorem deliverCut_bytes (e : Err) (t : List UInt8) : ∀ (ns : List Nat) (c : List UInt8),
    allBytes (deliverCut c t e ns) <+: c ++ t ∧
    (c.length < ns.sum → c <+: allBytes (deliverCut c t e ns) ∧
      ∃ init d, deliverCut c t e ns = init ++ [(d, some e)] ∧ ∀ o ∈ init, o.2 = none) ∧
    (ns.sum ≤ c.length → allBytes (deliverCut c t e ns) = c.take ns.sum)
  | [], c => by simp [deliverCut, allBytes]
  | n :: ns, c => by
    unfold deliverCut
    split
    · rename_i hn
      obtain ⟨h1, h2, h3⟩ := deliverCut_bytes e t ns (c.drop n)
      rw [allBytes_cons]
      refine ⟨?_, ?_, ?_⟩
      · have : c ++ t = c.take n ++ (c.drop n ++ t) := by
          rw [← List.append_assoc, List.take_append_drop]
        rw [this]
        exact (List.prefix_append_right_inj _).mpr h1
      · intro hs
        simp only [List.sum_cons] at hs
        obtain ⟨h4, i, d, h5, h6⟩ := h2 (by simp; omega)
        refine ⟨?_, (c.take n, none) :: i, d, by rw [h5]; rfl, ?_⟩
        · conv => lhs; rw [← List.take_append_drop n c]
          exact (List.prefix_append_right_inj _).mpr h4
        · intro o ho
          rcases List.mem_cons.mp ho with rfl | ho
          · rfl
          · exact h6 o ho
      · intro hs
        simp only [List.sum_cons] at hs ⊢
        rw [h3 (by simp; omega), List.take_add]
    · rename_i hn
      have e1 : allBytes [(c ++ t.take (n - c.length), some e)] = c ++ t.take (n - c.length) := by
        simp [allBytes]
      rw [e1]
      refine ⟨?_, ?_, ?_⟩
      · exact (List.prefix_append_right_inj _).mpr (List.take_prefix _ _)
      · intro _
        exact ⟨List.prefix_append _ _, [], _, rfl, by simp⟩
      · intro hs
        simp only [List.sum_cons] at hs
        omega

/-- all units, the one being read first -/
def allUnits : Option (List UInt8) → List (List UInt8) → List (List UInt8)
  | none, us => us
  | some b, us => b :: us

theorem sections_cons_none (d : List UInt8) (outs : List (List UInt8 × Option Err)) :
    sections ((d, none) :: outs) =
      match (sections outs).1 with
      | [] => ([], d ++ (sections outs).2)
      | u :: us => ((d ++ u) :: us, (sections outs).2) := by
  simp only [sections, reduceCtorEq, if_false]
  cases (sections outs).1 <;> rfl

/-- one Read on the unit `b`: common part of the two cases -/
theorem deliverUnits_step (e : Err) (us : List (List UInt8)) (n : Nat) (ns : List Nat) (b : List UInt8)
    (cur : Option (List UInt8)) (us0 : List (List UInt8)) (hall : allUnits cur us0 = b :: us)
    : deliverUnits e cur us0 (n :: ns) =
      if n ≤ b.length then (b.take n, none) :: deliverUnits e (some (b.drop n)) us ns
      else (b, some .eop) :: deliverUnits e none us ns := by
  cases cur with
  | none =>
    simp only [allUnits] at hall
    subst hall
    rfl
  | some c =>
    simp only [allUnits, List.cons.injEq] at hall
    obtain ⟨rfl, rfl⟩ := hall
    rw [deliverUnits]

theorem deliverUnits_sections (e : Err) (hne : e ≠ .eop) : ∀ (ns : List Nat) (cur : Option (List UInt8))
    (us : List (List UInt8)),
    ∃ k, (sections (deliverUnits e cur us ns)).1 = (allUnits cur us).take k ∧
      (sections (deliverUnits e cur us ns)).2 <+: ((allUnits cur us)[k]?).getD [] := by
  intro ns
  induction ns with
  | nil =>
    intro cur us
    have : deliverUnits e cur us [] = [] := by cases cur <;> cases us <;> rfl
    rw [this]
    exact ⟨0, by simp [sections], by simp [sections]⟩
  | cons n ns ih =>
    intro cur us0
    match hall : allUnits cur us0 with
    | [] =>
      cases cur with
      | some c => simp [allUnits] at hall
      | none =>
        simp only [allUnits] at hall
        subst hall
        refine ⟨0, ?_, ?_⟩ <;> simp [deliverUnits, sections, hne]
    | b :: us =>
      rw [deliverUnits_step e us n ns b cur us0 hall]
      split
      · rename_i hn
        rw [sections_cons_none]
        obtain ⟨k, h1, h2⟩ := ih (some (b.drop n)) us
        simp only [allUnits] at h1 h2
        cases k with
        | zero =>
          rw [h1]
          refine ⟨0, rfl, ?_⟩
          simp only [List.length_cons, Nat.zero_lt_succ, getElem?_pos, List.getElem_cons_zero, Option.getD_some] at h2 ⊢
          conv => rhs; rw [← List.take_append_drop n b]
          exact (List.prefix_append_right_inj _).mpr h2
        | succ k =>
          rw [h1]
          refine ⟨k + 1, ?_, ?_⟩
          · simp
          · simpa using h2
      · obtain ⟨k, h1, h2⟩ := ih none us
        simp only [allUnits] at h1 h2
        refine ⟨k + 1, ?_, ?_⟩
        · simp [sections, h1]
        · simpa [sections] using h2

/-- once `e` is reported every unit has been seen completely -/
theorem deliverUnits_all (e : Err) (hne : e ≠ .eop) : ∀ (ns : List Nat) (cur : Option (List UInt8))
    (us : List (List UInt8)), (∃ d, (d, some e) ∈ deliverUnits e cur us ns) →
    sections (deliverUnits e cur us ns) = (allUnits cur us, []) := by
  intro ns
  induction ns with
  | nil =>
    intro cur us h
    have : deliverUnits e cur us [] = [] := by cases cur <;> cases us <;> rfl
    rw [this] at h
    simp at h
  | cons n ns ih =>
    intro cur us0 h
    match hall : allUnits cur us0 with
    | [] =>
      cases cur with
      | some c => simp [allUnits] at hall
      | none =>
        simp only [allUnits] at hall
        subst hall
        simp [deliverUnits, sections, hne]
    | b :: us =>
      rw [deliverUnits_step e us n ns b cur us0 hall] at h ⊢
      split at h
      · rename_i hn
        obtain ⟨d, h⟩ := h
        have h' := ih (some (b.drop n)) us ⟨d, by simpa using h⟩
        rw [if_pos hn, sections_cons_none, h']
        simp [allUnits]
      · rename_i hn
        obtain ⟨d, h⟩ := h
        have h' := ih none us ⟨d, by simpa [hne] using h⟩
        rw [if_neg hn]
        simp [sections, h', allUnits]

/-- reads with non-empty buffers eventually report `e` -/
theorem deliverUnits_live (e : Err) : ∀ (ns : List Nat) (cur : Option (List UInt8))
    (us : List (List UInt8)), (∀ n ∈ ns, 0 < n) →
    ((allUnits cur us).map (fun u => u.length + 1)).sum < ns.length →
    ∃ d, (d, some e) ∈ deliverUnits e cur us ns := by
  intro ns
  induction ns with
  | nil => intro cur us _ h; simp at h
  | cons n ns ih =>
    intro cur us0 hp h
    have hn0 : 0 < n := hp n (by simp)
    have hp' : ∀ n ∈ ns, 0 < n := fun m hm => hp m (by simp [hm])
    match hall : allUnits cur us0 with
    | [] =>
      cases cur with
      | some c => simp [allUnits] at hall
      | none =>
        simp only [allUnits] at hall
        subst hall
        exact ⟨[], by simp [deliverUnits]⟩
    | b :: us =>
      rw [hall] at h
      rw [deliverUnits_step e us n ns b cur us0 hall]
      simp only [List.map_cons, List.sum_cons, List.length_cons] at h
      split
      · rename_i hn
        obtain ⟨d, h'⟩ := ih (some (b.drop n)) us hp' (by simp [allUnits]; omega)
        exact ⟨d, by simp [h']⟩
      · obtain ⟨d, h'⟩ := ih none us hp' (by simp only [allUnits]; omega)
        exact ⟨d, by simp [h']⟩

end Spec

/-! ### encoded streams -/

/-- the packet values observed when parsing the encoded packets `ps` one after another into `p0` -/
def observed (p0 : Packet) : List Pkt → List Packet
  | [] => []
  | p :: ps => result p0 p.hdr p.body :: observed (result p0 p.hdr p.body) ps

def lastOf (p0 : Packet) : List Pkt → Packet
  | [] => p0
  | p :: ps => lastOf (result p0 p.hdr p.body) ps

theorem run_enc {stop : Err} {later : List (List Bool × Err)} : ∀ (ps : List Pkt) (p0 : Packet) (pos : Nat),
    (∀ p ∈ ps, p.WF ∧ p.body.Plain) → pos % 8 = 0 →
    Run ⟨p0, ⟨(ps.map encPkt).flatten, pos, stop, later⟩⟩ (observed p0 ps)
      ⟨lastOf p0 ps, ⟨[], pos + 188 * 8 * ps.length, stop, later⟩⟩
  | [], p0, pos, _, _ => by simpa [observed, lastOf] using Run.nil _
  | p :: ps, p0, pos, h, h8 => by
    have hp := h p (by simp)
    have h1 := next_enc (r := (ps.map encPkt).flatten) (pos := pos) (stop := stop) (later := later)
      p0 p hp.1 hp.2 h8
    have h2 := run_enc (stop := stop) (later := later) ps (result p0 p.hdr p.body) (pos + 188 * 8)
      (fun q hq => h q (by simp [hq])) (by omega)
    simp only [List.map_cons, List.flatten_cons, observed, lastOf, List.length_cons]
    rw [show pos + 188 * 8 * (ps.length + 1) = pos + 188 * 8 + 188 * 8 * ps.length by omega]
    exact Run.cons h1 h2

/-- the payload of an encoded packet -/
def Spec.Body.data : Body → List UInt8
  | .payload d => d
  | .af _ => []
  | .afPayload _ d => d

/-- does the packet carry a payload? -/
def Spec.Body.hasPayload : Body → Bool
  | .af _ => false
  | _ => true

theorem observed_payloads (w : Packet → Bool) (v : Hdr → Bool)
    (hw : ∀ p h b, w (result p h b) = v h) : ∀ (ps : List Pkt) (p0 : Packet),
    (∀ p ∈ ps, v p.hdr = true → p.body.hasPayload = true) →
    payloads w (observed p0 ps) = ((ps.filter (fun p => v p.hdr)).map (fun p => p.body.data)).flatten
  | [], p0, _ => rfl
  | p :: ps, p0, h => by
    rw [observed, payloads_cons, hw, observed_payloads w v hw ps _ (fun q hq => h q (by simp [hq]))]
    by_cases hv : v p.hdr = true
    · have hb := h p (by simp) hv
      have hr := result_body p0 p.hdr p.body
      simp only [hv, if_true, List.filter_cons_of_pos, List.map_cons, List.flatten_cons]
      congr 1
      revert hb hr
      cases hbd : p.body with
      | payload d => intro _ hr; exact hr.1
      | af a => simp [Body.hasPayload]
      | afPayload a d => intro _ hr; simp only [AfterBody] at hr; simp [Body.data, hr]
    · simp [hv]

end Mpeg.TS
