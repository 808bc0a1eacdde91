/-
C103: which packets are accepted.
-/
import Verif.TS.Props
namespace Mpeg.TS
open Spec

namespace Spec

/-- What is reported of an adaptation field extension describes all its bytes. -/
def ConsistentExt (e : AdaptationExt) : Prop :=
  e.seamlessSpliceFlag = false ∧
  e.length = 1 + (if e.legalTimeWindowFlag then 2 else 0) + (if e.piecewiseRateFlag then 3 else 0)

/-- The parts that the flags of a reported adaptation field announce are there and fit into its length. -/
structure Consistent (f : AdaptationField) : Prop where
  room : 0 < f.length → 1 + (if f.pcrFlag then 6 else 0) + (if f.opcrFlag then 6 else 0) +
    (if f.splicingPointFlag then 1 else 0) + ((f.transportPrivateData.map fun d => 1 + d.length).getD 0) +
    ((f.adaptationExtension.map fun e => 1 + e.length).getD 0) ≤ f.length
  priv : f.transportPrivateDataFlag = true → f.transportPrivateData ≠ none
  ext : f.adaptationFieldExtensionFlag = true → ∃ e, f.adaptationExtension = some e ∧ ConsistentExt e

/-- The values of a packet that `Next` has returned are those of a packet of the standard: adaptation_field_control is not
the reserved 00, the adaptation field is consistent, and without payload it fills the packet. -/
def Faithful (q : Packet) : Prop :=
  q.adaptationFieldControl = 1 ∨
  (q.adaptationFieldControl = 2 ∧ ∃ f, q.adaptationField = some f ∧ Consistent f ∧ f.length = 183) ∨
  (q.adaptationFieldControl = 3 ∧ ∃ f, q.adaptationField = some f ∧ Consistent f)

end Spec

theorem read_bits {k v : Nat} {s s' : BR} (h : BR.read k s = (.ok v, s')) : BR.Took s (bitsOf k v) s' ∧ v < 2 ^ k := by
  obtain ⟨l, t, e, rfl⟩ := BR.read_inv h
  rw [bitsOf_natOfBits' e]
  exact ⟨t, e ▸ natOfBits_lt l⟩

theorem readPcr_bits {v : Nat} {s s' : BR} (h : readPcr s = (.ok v, s')) : ∃ c : Clock, c.WF ∧ BR.Took s (encClock c) s' := by
  unfold readPcr at h
  obtain ⟨b, s1, h1, h⟩ := Go.bind_eq_ok h
  obtain ⟨r, s2, h2, h⟩ := Go.bind_eq_ok h
  obtain ⟨e, s3, h3, h⟩ := Go.bind_eq_ok h
  simp at h
  obtain ⟨t1, l1⟩ := read_bits h1
  obtain ⟨t2, l2⟩ := read_bits h2
  obtain ⟨t3, l3⟩ := read_bits h3
  rw [← h.2]
  exact ⟨⟨b, r, e⟩, ⟨l1, l3⟩, t1.trans (t2.trans t3)⟩

theorem optPcr_bits {c : Bool} {v : Nat} {s s' : BR} (h : Go.opt c 0 readPcr s = (.ok v, s')) :
    ∃ o : Option Clock, (∀ x, o = some x → x.WF) ∧ o.isSome = c ∧ BR.Took s (encOpt encClock o) s' := by
  rcases opt_inv h with ⟨rfl, h⟩ | ⟨rfl, _, rfl⟩
  · obtain ⟨x, w, t⟩ := readPcr_bits h
    exact ⟨some x, fun y hy => (by cases hy; exact w), rfl, t⟩
  · exact ⟨none, fun y hy => (by cases hy), rfl, BR.Took.refl _⟩

theorem optSplice_bits {c : Bool} {v : Nat} {s s' : BR} (h : Go.opt c 0 (BR.read 8) s = (.ok v, s')) :
    ∃ o : Option UInt8, o.isSome = c ∧ BR.Took s (encOpt (fun b : UInt8 => bitsOf 8 b.toNat) o) s' := by
  rcases opt_inv h with ⟨rfl, h⟩ | ⟨rfl, _, rfl⟩
  · obtain ⟨t, l⟩ := read_bits h
    refine ⟨some (UInt8.ofNat v), rfl, ?_⟩
    have : (UInt8.ofNat v).toNat = v := by simp; omega
    show BR.Took s (bitsOf 8 (UInt8.ofNat v).toNat) s'
    rw [this]; exact t
  · exact ⟨none, rfl, BR.Took.refl _⟩

theorem priv_bits {v : TransportPrivateData} {n : Nat} {s s' : BR} (h : newTransportPrivateData s = (.ok (v, n), s')) :
    v.length = n ∧ n < 256 ∧ ∃ d : List UInt8, d.length = n ∧ BR.Took s (encPriv (some d)) s' := by
  unfold newTransportPrivateData at h
  obtain ⟨len, s1, h1, h⟩ := Go.bind_eq_ok h
  obtain ⟨d, s2, h2, h⟩ := Go.bind_eq_ok h
  simp at h
  obtain ⟨t1, l1⟩ := read_bits h1
  obtain ⟨⟨rfl, rfl⟩, rfl⟩ := h
  refine ⟨rfl, l1, ?_⟩
  rcases opt_inv h2 with ⟨_, h2⟩ | ⟨hc, _, rfl⟩
  · obtain ⟨t2, e2⟩ := readFullUE_inv h2
    refine ⟨d, e2, ?_⟩
    show BR.Took s (bitsOf 8 d.length ++ bitsOfBytes d) _
    rw [e2]; exact t1.trans t2
  · simp at hc
    subst hc
    exact ⟨[], rfl, by simpa [encPriv] using t1⟩

theorem flags_bits {f : AdaptationField} {s s' : BR} (h : afFlags true s = (.ok f, s')) :
    BR.Took s [f.discontinuityIndicator, f.randomAccessIndicator, f.elementaryStreamPriorityIndicator, f.pcrFlag, f.opcrFlag,
      f.splicingPointFlag, f.transportPrivateDataFlag, f.adaptationFieldExtensionFlag] s' := by
  unfold afFlags at h
  rw [Go.opt_true] at h
  obtain ⟨_, s1, h1, h⟩ := Go.bind_eq_ok h
  obtain ⟨_, s2, h2, h⟩ := Go.bind_eq_ok h
  obtain ⟨_, s3, h3, h⟩ := Go.bind_eq_ok h
  obtain ⟨_, s4, h4, h⟩ := Go.bind_eq_ok h
  obtain ⟨_, s5, h5, h⟩ := Go.bind_eq_ok h
  obtain ⟨_, s6, h6, h⟩ := Go.bind_eq_ok h
  obtain ⟨_, s7, h7, h⟩ := Go.bind_eq_ok h
  obtain ⟨_, s8, h8, h⟩ := Go.bind_eq_ok h
  simp at h
  obtain ⟨rfl, rfl⟩ := h
  exact (BR.read1_inv h1).trans ((BR.read1_inv h2).trans ((BR.read1_inv h3).trans ((BR.read1_inv h4).trans
    ((BR.read1_inv h5).trans ((BR.read1_inv h6).trans ((BR.read1_inv h7).trans (BR.read1_inv h8)))))))

theorem ignore_skip {k : Nat} {u : Unit} {s s' : BR} (hk : k ≤ s.bits.length)
    (h : Go.ignoreErr (BR.skip k) s = (.ok u, s')) : ∃ v, BR.Took s (bitsOf k v) s' := by
  rw [ignoreErr_ok (BR.skip_ok hk)] at h
  simp only [Prod.mk.injEq, true_and] at h
  refine ⟨natOfBits (s.bits.take k), ?_⟩
  rw [bitsOf_natOfBits' (by simp [hk]), ← h]
  exact BR.took_adv hk

theorem ext_bits {e : AdaptationExt} {n : Nat} {s s' : BR} (hl : s.later = []) (h8 : s.bits.length % 8 = 0)
    (h : newAdaptationExt s = (.ok (e, n), s')) (hc : ConsistentExt e) :
    e.length = n ∧ n < 256 ∧ ∃ x : Ext, x.WF ∧ x.Plain ∧ x.len = n ∧ BR.Took s (encExt x) s' := by
  unfold newAdaptationExt at h
  obtain ⟨len, s1, h1, h⟩ := Go.bind_eq_ok h
  obtain ⟨⟨l0, p0, q0⟩, s2, h2, h⟩ := Go.bind_eq_ok h
  obtain ⟨⟨lv, lo⟩, s3, h3, h⟩ := Go.bind_eq_ok h
  obtain ⟨pr, s4, h4, h⟩ := Go.bind_eq_ok h
  obtain ⟨⟨st, dts⟩, s5, h5, h⟩ := Go.bind_eq_ok h
  simp only [Go.pure_apply, Prod.mk.injEq, Res.ok.injEq] at h
  obtain ⟨⟨rfl, rfl⟩, rfl⟩ := h
  obtain ⟨c1, c2⟩ := hc
  simp only at c1 c2
  subst c1
  obtain ⟨t1, b1⟩ := read_bits h1
  refine ⟨rfl, b1, ?_⟩
  have hlen : len ≥ 1 := by omega
  simp only [hlen, decide_true, if_true] at h2 h3 h4 h5
  unfold extFlags at h2
  rw [Go.opt_true] at h2
  obtain ⟨l, u1, k1, h2⟩ := Go.bind_eq_ok h2
  obtain ⟨p, u2, k2, h2⟩ := Go.bind_eq_ok h2
  obtain ⟨_, u3, k3, h2⟩ := Go.bind_eq_ok h2
  obtain ⟨_, u4, k4, h2⟩ := Go.bind_eq_ok h2
  simp only [Go.pure_apply, Prod.mk.injEq, Res.ok.injEq] at h2
  obtain ⟨⟨rfl, rfl, rfl⟩, rfl⟩ := h2
  have T := t1.trans ((BR.read1_inv k1).trans ((BR.read1_inv k2).trans (BR.read1_inv k3)))
  have hu3 : 5 ≤ u3.bits.length := by
    have := congrArg List.length T.bits
    simp at this
    omega
  obtain ⟨r5, t4⟩ := ignore_skip hu3 k4
  have T4 := T.trans t4
  -- ltw
  have L : ∃ o : Option (Bool × Nat), o.isSome = l ∧ (∀ v w, o = some (v, w) → w < 2 ^ 15) ∧ BR.Took u4 (encLtw o) s3 := by
    unfold extLTW at h3
    rcases opt_inv h3 with ⟨hc, h3⟩ | ⟨hc, _, rfl⟩
    · obtain ⟨v, v1, m1, h3⟩ := Go.bind_eq_ok h3
      obtain ⟨w, v2, m2, h3⟩ := Go.bind_eq_ok h3
      simp only [Go.pure_apply, Prod.mk.injEq, Res.ok.injEq] at h3
      obtain ⟨_, rfl⟩ := h3
      obtain ⟨a, b⟩ := read_bits m2
      simp at hc
      exact ⟨some (v, w), hc.2.symm, fun v' w' e => (by cases e; exact b), (BR.read1_inv m1).trans a⟩
    · have : l = false := by
        cases l
        · rfl
        · simp only [if_true] at c2
          simp at hc
          omega
      exact ⟨none, this.symm, fun v w e => (by cases e), BR.Took.refl _⟩
  obtain ⟨ol, ol1, ol2, ol3⟩ := L
  have T5 := T4.trans ol3
  have P : ∃ o : Option (Nat × Nat), o.isSome = p ∧ (∀ v w, o = some (v, w) → w < 2 ^ 22) ∧ BR.Took s3 (encPiecewise o) s4 := by
    unfold extPiecewise at h4
    rcases opt_inv h4 with ⟨hc, h4⟩ | ⟨hc, _, rfl⟩
    · obtain ⟨_, v1, m1, h4⟩ := Go.bind_eq_ok h4
      have hs3 : 2 ≤ s3.bits.length := by
        by_cases hh : 2 ≤ s3.bits.length
        · exact hh
        · exfalso
          have e1 : Go.ignoreErr (BR.skip 2) s3 = (.ok (), s3.failTo) := by
            unfold Go.ignoreErr; rw [BR.skip_short (by omega)]
          rw [e1] at m1
          simp only [Prod.mk.injEq, true_and] at m1
          subst m1
          have : (s3.failTo).bits = [] := by
            unfold BR.failTo
            rw [T5.later, hl]
          rw [BR.read_nil 22 (by decide) _ this] at h4
          simp at h4
      obtain ⟨r, a⟩ := ignore_skip hs3 m1
      obtain ⟨b, c⟩ := read_bits h4
      simp at hc
      exact ⟨some (r, pr), hc.2.symm, fun v' w' e => (by cases e; exact c), a.trans b⟩
    · have : p = false := by
        cases p
        · rfl
        · simp only [if_true] at c2
          cases l
          · simp at hc c2; omega
          · have : 2 ≤ len - 1 := by simp at c2; omega
            simp [this] at hc c2; omega
      exact ⟨none, this.symm, fun v w e => (by cases e), BR.Took.refl _⟩
  obtain ⟨op, op1, op2, op3⟩ := P
  have hs5 : s5 = s4 := by
    unfold extSplice at h5
    simp at h5
    exact h5.2.symm
  subst hs5
  refine ⟨⟨ol, op, none, r5, []⟩, ⟨ol2, op2, fun t d m e => (by cases e)⟩, ⟨rfl, rfl⟩, ?_, ?_⟩
  · simp only [Ext.len, ol1, op1]
    simpa using c2.symm
  · have T6 := T5.trans op3
    have e : encExt ⟨ol, op, none, r5, []⟩ = bitsOf 8 len ++ ([l] ++ ([p] ++ [false])) ++ bitsOf 5 r5 ++ encLtw ol ++ encPiecewise op := by
      have : (⟨ol, op, none, r5, []⟩ : Ext).len = len := by
        simp only [Ext.len, ol1, op1]
        simpa using c2.symm
      simp [encExt, this, encSplice, ol1, op1]
    rw [e]
    exact T6

theorem flag_room {n k : Nat} {b : Bool} (h : (if b then k else 0) ≤ n) : (decide (n ≥ k) && b) = b := by
  cases b
  · simp
  · simpa using h

theorem junk_bits {n : Nat} {j : List UInt8} {s s' : BR}
    (h : Go.opt (decide (n > 0)) [] (readFullUE n) s = (.ok j, s')) : j.length = n ∧ BR.Took s (bitsOfBytes j) s' := by
  rcases opt_inv h with ⟨_, h⟩ | ⟨hc, rfl, rfl⟩
  · obtain ⟨t, e⟩ := readFullUE_inv h
    exact ⟨e, t⟩
  · simp at hc
    exact ⟨hc.symm, BR.Took.refl _⟩

/-- Inverse of the adaptation field parser. -/
theorem af_bits {f : AdaptationField} {n : Nat} {s s' : BR} (hl : s.later = []) (h8 : s.bits.length % 8 = 0)
    (h : newAdaptationField s = (.ok (f, n), s')) (hc : Consistent f) :
    f.length = n ∧ n < 256 ∧ ∃ a : Option AF, (∀ x, a = some x → x.Fields) ∧ plain? a ∧ len? a = n ∧ BR.Took s (encAF? a) s' := by
  unfold newAdaptationField at h
  obtain ⟨len, s1, h1, h⟩ := Go.bind_eq_ok h
  obtain ⟨g, s2, h2, h⟩ := Go.bind_eq_ok h
  obtain ⟨pcr, s3, h3, h⟩ := Go.bind_eq_ok h
  obtain ⟨opcr, s4, h4, h⟩ := Go.bind_eq_ok h
  obtain ⟨sc, s5, h5, h⟩ := Go.bind_eq_ok h
  obtain ⟨tpd, s6, h6, h⟩ := Go.bind_eq_ok h
  obtain ⟨ext, s7, h7, h⟩ := Go.bind_eq_ok h
  obtain ⟨junk, s8, h8', h⟩ := Go.bind_eq_ok h
  simp only [Go.pure_apply, Prod.mk.injEq, Res.ok.injEq] at h
  obtain ⟨⟨rfl, rfl⟩, rfl⟩ := h
  obtain ⟨t1, b1⟩ := read_bits h1
  refine ⟨rfl, b1, ?_⟩
  obtain ⟨c1, c2, c3⟩ := hc
  simp only at c1 c2 c3
  by_cases h0 : len = 0
  · subst h0
    have hg : g = {} ∧ s2 = s1 := by
      unfold afFlags at h2
      simp at h2
      exact ⟨h2.1.symm, h2.2.symm⟩
    obtain ⟨rfl, rfl⟩ := hg
    simp at h3 h4 h5 h6 h7
    obtain ⟨_, rfl⟩ := h3
    obtain ⟨_, rfl⟩ := h4
    obtain ⟨_, rfl⟩ := h5
    obtain ⟨rfl, rfl⟩ := h6
    obtain ⟨rfl, rfl⟩ := h7
    simp [afterPart] at h8'
    obtain ⟨_, rfl⟩ := h8'
    exact ⟨none, fun x e => (by cases e), trivial, rfl, t1⟩
  · have hge : len ≥ 1 := by omega
    have c1 := c1 hge
    simp only [hge, decide_true, if_true] at h2 h3 h4 h5 h6 h7 h8'
    have t2 := flags_bits h2
    -- private data
    have hT : ∃ o : Option (List UInt8), o.isSome = g.transportPrivateDataFlag ∧
        ((tpd.map (·.1)).map fun d => 1 + d.length).getD 0 = privLen o ∧
        BR.Took s5 (encPriv o) s6 ∧ (∀ r, privLen o ≤ r → r < 2 ^ 32 →
          afterPart r tpd = r - privLen o) := by
      rcases opt_inv h6 with ⟨hcc, h6⟩ | ⟨hcc, rfl, rfl⟩
      · obtain ⟨⟨v, m⟩, h6', rfl⟩ := map_inv h6
        obtain ⟨e1, e2, d, e3, e4⟩ := priv_bits h6'
        simp at hcc
        refine ⟨some d, hcc.2.symm, by simp [e1, e3, privLen], e4, fun r hr hr2 => ?_⟩
        have hr : 1 + d.length ≤ r := hr
        simp only [afterPart]
        rw [sub32_le (by omega) hr2]
        show r - (m + 1) = r - (1 + d.length)
        omega
      · refine ⟨none, ?_, rfl, BR.Took.refl _, fun r _ _ => rfl⟩
        cases hg : g.transportPrivateDataFlag
        · rfl
        · exact absurd rfl (c2 hg)
    obtain ⟨ot, ot1, ot2, ot3, ot4⟩ := hT
    obtain ⟨o1, o1w, o1s, o1t⟩ := optPcr_bits h3
    obtain ⟨o2, o2w, o2s, o2t⟩ := optPcr_bits h4
    obtain ⟨o3, o3s, o3t⟩ := optSplice_bits h5
    have T6 := t1.trans (t2.trans (o1t.trans (o2t.trans (o3t.trans ot3))))
    generalize hx1 : (if g.pcrFlag = true then 6 else 0) = x1 at c1
    generalize hx2 : (if g.opcrFlag = true then 6 else 0) = x2 at c1
    generalize hx3 : (if g.splicingPointFlag = true then 1 else 0) = x3 at c1
    rw [ot2] at c1
    generalize hx4 : privLen ot = x4 at c1 ot4
    have n1 : (decide (len - 1 ≥ 6) && g.pcrFlag) = g.pcrFlag := flag_room (by omega)
    rw [n1] at h4 h5 h6 h7 h8' o1s o2s o3s
    generalize hr2 : (if g.pcrFlag = true then len - 1 - 6 else len - 1) = r2 at *
    have e2 : r2 = len - 1 - x1 := by rw [← hr2, ← hx1]; split <;> rfl
    have n2 : (decide (r2 ≥ 6) && g.opcrFlag) = g.opcrFlag := flag_room (by omega)
    rw [n2] at h5 h6 h7 h8' o2s o3s
    generalize hr3 : (if g.opcrFlag = true then r2 - 6 else r2) = r3 at *
    have e3 : r3 = r2 - x2 := by rw [← hr3, ← hx2]; split <;> rfl
    have n3 : (decide (r3 ≥ 1) && g.splicingPointFlag) = g.splicingPointFlag := flag_room (by omega)
    rw [n3] at h6 h7 h8' o3s
    generalize hr4 : (if g.splicingPointFlag = true then r3 - 1 else r3) = r4 at *
    have e4 : r4 = r3 - x3 := by rw [← hr4, ← hx3]; split <;> rfl
    have e5 := ot4 r4 (by omega) (by omega)
    rw [e5] at h7 h8'
    have T6 := t1.trans (t2.trans (o1t.trans (o2t.trans (o3t.trans ot3))))
    have hm : s6.bits.length % 8 = 0 := by
      have := congrArg List.length T6.bits
      have y1 : (encOpt encClock o1).length % 8 = 0 := by
        cases o1
        · rfl
        · show (encClock _).length % 8 = 0; rw [length_encClock]
      have y2 : (encOpt encClock o2).length % 8 = 0 := by
        cases o2
        · rfl
        · show (encClock _).length % 8 = 0; rw [length_encClock]
      have y3 : (encOpt (fun b : UInt8 => bitsOf 8 b.toNat) o3).length % 8 = 0 := by
        cases o3
        · rfl
        · show (bitsOf 8 _).length % 8 = 0; rw [length_bitsOf]
      have y4 : (encPriv ot).length % 8 = 0 := by
        cases ot
        · rfl
        · simp [encPriv]
      simp only [List.length_append, length_bitsOf, List.length_cons, List.length_nil] at this
      omega
    have hE : ∃ o : Option Ext, o.isSome = g.adaptationFieldExtensionFlag ∧ (∀ e, o = some e → e.WF) ∧
        (∀ e, o = some e → e.Plain) ∧
        ((ext.map (·.1)).map fun e => 1 + e.length).getD 0 = extLen o ∧
        BR.Took s6 (encOpt encExt o) s7 ∧ (∀ r, extLen o ≤ r → r < 2 ^ 32 →
          afterPart r ext = r - extLen o) := by
      rcases opt_inv h7 with ⟨hcc, h7⟩ | ⟨hcc, rfl, rfl⟩
      · obtain ⟨⟨v, m⟩, h7', rfl⟩ := map_inv h7
        simp only [Bool.and_eq_true, decide_eq_true_eq] at hcc
        obtain ⟨e, he, hce⟩ := c3 hcc.2
        simp only [Option.map_some, Option.some.injEq] at he
        subst he
        obtain ⟨k1, k2, x, k3, k4, k5, k6⟩ := ext_bits (T6.later.trans hl) hm h7' hce
        refine ⟨some x, hcc.2.symm, fun e h => (by cases h; exact k3), fun e h => (by cases h; exact k4), by simp [k1, k5, extLen], k6,
          fun r hr hr2 => ?_⟩
        have hr : 1 + x.len ≤ r := hr
        simp only [afterPart]
        rw [sub32_le (by omega) hr2]
        show r - (m + 1) = r - (1 + x.len)
        omega
      · refine ⟨none, ?_, fun e h => (by cases h), fun e h => (by cases h), rfl, BR.Took.refl _, fun r _ _ => rfl⟩
        cases hg : g.adaptationFieldExtensionFlag
        · rfl
        · obtain ⟨e, he, _⟩ := c3 hg
          cases he
    obtain ⟨oe, oe1, oe2, oe3, oe4, oe5, oe6⟩ := hE
    rw [oe4] at c1
    generalize hx5 : extLen oe = x5 at c1 oe6
    rw [oe6 _ (by omega) (by omega)] at h8'
    obtain ⟨j1, j2⟩ := junk_bits h8'
    have hlen : AF.len ⟨g.discontinuityIndicator, g.randomAccessIndicator, g.elementaryStreamPriorityIndicator, o1, o2, o3, ot,
        oe, junk⟩ = len := by
      show 1 + optLen 6 o1 + optLen 6 o2 + optLen 1 o3 + privLen ot + extLen oe + junk.length = len
      simp only [optLen, o1s, o2s, o3s, hx1, hx2, hx3, hx4, hx5, j1]
      omega
    refine ⟨some ⟨g.discontinuityIndicator, g.randomAccessIndicator, g.elementaryStreamPriorityIndicator, o1, o2, o3, ot,
      oe, junk⟩, fun x hx => ?_, fun e he => oe3 e he, hlen, ?_⟩
    · cases hx
      exact ⟨o1w, o2w, oe2⟩
    · have T := t1.trans (t2.trans (o1t.trans (o2t.trans (o3t.trans (ot3.trans (oe5.trans j2))))))
      simp only [encAF?, encAF, hlen, o1s, o2s, o3s, ot1, oe1]
      exact T

/-! ### C103 -/

theorem afterSync_bits {s s' : St} {u : Unit} (h : afterSync s = (.ok u, s')) :
    ∃ (hd : Hdr) (b : BR), hd.WF ∧ s'.pkt.adaptationFieldControl < 4 ∧
      BR.Took s.br (hdrTail hd s'.pkt.adaptationFieldControl) b ∧
      ((s'.pkt.adaptationFieldControl = 0) ∨
       (s'.pkt.adaptationFieldControl = 1 ∧ s'.pkt.payload.length = 184 ∧ BR.Took b (bitsOfBytes s'.pkt.payload) s'.br) ∨
       (∃ af len, s'.pkt.adaptationFieldControl = 2 ∧ newAdaptationField b = (.ok (af, len), s'.br) ∧
          s'.pkt.adaptationField = some af) ∨
       (∃ af len b', s'.pkt.adaptationFieldControl = 3 ∧ newAdaptationField b = (.ok (af, len), b') ∧
          s'.pkt.adaptationField = some af ∧ sub32 184 (len + 1) ≤ 184 ∧
          s'.pkt.payload.length = sub32 184 (len + 1) ∧ BR.Took b' (bitsOfBytes s'.pkt.payload) s'.br)) := by
  unfold afterSync at h
  obtain ⟨_, s1, h1, h⟩ := Go.bind_eq_ok h
  obtain ⟨_, s2, h2, h⟩ := Go.bind_eq_ok h
  obtain ⟨_, s3, h3, h⟩ := Go.bind_eq_ok h
  obtain ⟨_, s4, h4, h⟩ := Go.bind_eq_ok h
  obtain ⟨_, s5, h5, h⟩ := Go.bind_eq_ok h
  obtain ⟨afc, s6, h6, h⟩ := Go.bind_eq_ok h
  obtain ⟨_, s7, h7, h⟩ := Go.bind_eq_ok h
  obtain ⟨_, s8, h8, h⟩ := Go.bind_eq_ok h
  obtain ⟨size, s9, h9, hL⟩ := Go.bind_eq_ok h
  obtain ⟨v1, k1, _⟩ := readInto_inv h1
  obtain ⟨v2, k2, _⟩ := readInto_inv h2
  obtain ⟨v3, k3, _⟩ := readInto_inv h3
  obtain ⟨v4, k4, _⟩ := readInto_inv h4
  obtain ⟨v5, k5, _⟩ := readInto_inv h5
  obtain ⟨k6, p6⟩ := lift_inv h6
  simp only [Go.modify_apply, Prod.mk.injEq] at h7
  obtain ⟨v8, k8, p8⟩ := readInto_inv h8
  obtain ⟨t4, w4⟩ := read_bits k4
  obtain ⟨t5, w5⟩ := read_bits k5
  obtain ⟨t6, w6⟩ := read_bits k6
  obtain ⟨t8, w8⟩ := read_bits k8
  have b7 : s7.br = s6.br := by rw [← h7.2]
  rw [b7] at t8
  have T := (BR.read1_inv k1).trans ((BR.read1_inv k2).trans ((BR.read1_inv k3).trans (t4.trans (t5.trans (t6.trans t8)))))
  have a8 : s8.pkt.adaptationFieldControl = afc := by rw [p8, ← h7.2]
  have fin : s'.pkt.adaptationFieldControl = afc → _ := fun he =>
    (⟨(⟨by rw [he]; exact w6, by rw [he]; exact T⟩ : s'.pkt.adaptationFieldControl < 4 ∧
      BR.Took s.br (hdrTail ⟨v1, v2, v3, v4, v5, v8⟩ s'.pkt.adaptationFieldControl) s8.br)⟩ : PLift _)
  refine ⟨⟨v1, v2, v3, v4, v5, v8⟩, s8.br, ⟨w4, w5, w8⟩, ?_⟩
  have pay : ∀ {n : Nat} {x y : St}, readPayload n x = (.ok u, y) →
      n ≤ 184 ∧ y.pkt.payload.length = n ∧ BR.Took x.br (bitsOfBytes y.pkt.payload) y.br ∧
      y.pkt.adaptationField = x.pkt.adaptationField ∧
      y.pkt.adaptationFieldControl = x.pkt.adaptationFieldControl := by
    intro n x y hh
    obtain ⟨hle, bs, e, t, p⟩ := readPayload_inv hh
    have : y.pkt.payload = bs := by rw [p]; simp [Packet.payload, ← e]
    refine ⟨hle, by rw [this, e], by rw [this]; exact t, by rw [p], by rw [p]⟩
  rcases opt_inv h9 with ⟨c9, h9⟩ | ⟨c9, rfl, rfl⟩
  · obtain ⟨len, s10, h9, h10⟩ := Go.bind_eq_ok h9
    obtain ⟨af, hn, hp⟩ := readAdaptation_inv h9
    simp only [Go.pure_apply, Prod.mk.injEq, Res.ok.injEq] at h10
    obtain ⟨rfl, rfl⟩ := h10
    rcases opt_inv hL with ⟨c, hL⟩ | ⟨c, _, rfl⟩
    · obtain ⟨q1, q2, q3, q4, q5⟩ := pay hL
      have e3 : afc = 3 := by simp at c c9; omega
      have e3' : s'.pkt.adaptationFieldControl = afc := by rw [q5, hp]; exact a8
      refine ⟨(fin e3').down.1, (fin e3').down.2, ?_⟩
      exact Or.inr (Or.inr (Or.inr ⟨af, len, _, e3'.trans e3, hn, by rw [q4, hp], q1, q2, q3⟩))
    · have e2 : afc = 2 := by simp at c c9; omega
      have e2' : s'.pkt.adaptationFieldControl = afc := by rw [hp]; exact a8
      refine ⟨(fin e2').down.1, (fin e2').down.2, ?_⟩
      exact Or.inr (Or.inr (Or.inl ⟨af, len, e2'.trans e2, hn, by rw [hp]⟩))
  · rcases opt_inv hL with ⟨c, hL⟩ | ⟨c, _, rfl⟩
    · obtain ⟨q1, q2, q3, q4, q5⟩ := pay hL
      have e1 : afc = 1 := by simp at c c9; omega
      have e1' : s'.pkt.adaptationFieldControl = afc := by rw [q5]; exact a8
      refine ⟨(fin e1').down.1, (fin e1').down.2, ?_⟩
      exact Or.inr (Or.inl ⟨e1'.trans e1, q2, q3⟩)
    · have e0 : afc = 0 := by simp at c c9; omega
      refine ⟨(fin a8).down.1, (fin a8).down.2, ?_⟩
      exact Or.inl (a8.trans e0)

/-- What a packet of the standard makes `Next` report is faithful. -/
theorem consistent_view {a : AF} (hp : a.Plain) : Consistent (viewAF a) where
  room := fun _ => by
    show 1 + (if a.pcr.isSome then 6 else 0) + (if a.opcr.isSome then 6 else 0) + (if a.spliceCountdown.isSome then 1 else 0) +
      ((Option.map _ (a.priv.map _)).getD 0) + ((Option.map _ (a.ext.map viewExt)).getD 0) ≤ a.len
    unfold AF.len optLen
    cases a.priv <;> cases a.ext <;> simp [viewExt] <;> omega
  priv := fun h => by
    have h : a.priv.isSome = true := h
    show a.priv.map _ ≠ none
    cases hh : a.priv
    · rw [hh] at h; cases h
    · simp
  ext := fun h => by
    have h : a.ext.isSome = true := h
    cases hh : a.ext with
    | none => rw [hh] at h; cases h
    | some e =>
      obtain ⟨h1, h2⟩ := hp e hh
      refine ⟨viewExt e, by show a.ext.map viewExt = _; rw [hh]; rfl, ?_, ?_⟩
      · show e.splice.isSome = false; rw [h1]; rfl
      · show e.len = _
        simp [Ext.len, viewExt, h1, h2]

theorem consistent_view? {a : Option AF} (hp : plain? a) : Consistent (viewAF? a) := by
  cases a with
  | none => exact ⟨fun h => absurd h (Nat.lt_irrefl 0), fun h => (by cases h), fun h => (by cases h)⟩
  | some a => exact consistent_view hp

theorem length_view? (a : Option AF) : (viewAF? a).length = len? a := by cases a <;> rfl

/-- **C103** (only): a packet that `Next` returns from a byte boundary and whose reported values are faithful was coded as
the standard has it: the bits taken are exactly the 188 bytes of a packet with the values reported, nothing else. -/
theorem C103_only_partial {p0 q : Packet} {s s' : BR} (h8 : s.pos % 8 = 0) (hb : s.bits.length % 8 = 0) (hl : s.later = [])
    (hs : natOfBits (s.bits.take 8) = 0x47) (hlen : 8 ≤ s.bits.length) (h : Packet.next ⟨p0, s⟩ = (.ok (), ⟨q, s'⟩))
    (hf : Faithful q) :
    ∃ p : Pkt, p.WF ∧ p.body.Plain ∧ s.bits = encPkt p ++ s'.bits ∧ s'.pos = s.pos + 188 * 8 ∧
      HdrIs q p.hdr p.body.afc ∧ AfterBody p0 q p.body := by
  -- it is enough to find the packet
  have key : ∃ (p : Pkt) (r : List Bool), p.WF ∧ p.body.Plain ∧ s.bits = encPkt p ++ r := by
    have hh := h
    rw [next_eq] at hh
    simp only [Go.bind_apply, St.lift, isAligned_sync h8 hs hlen] at hh
    obtain ⟨hd, b, w, hlt, T, hc⟩ := afterSync_bits hh
    simp only at T hc hlt
    have hsync : s.bits = bitsOf 8 0x47 ++ (s.adv 8).bits := by
      rw [← hs, bitsOf_natOfBits' (by simp [hlen])]
      simp [BR.adv]
    have hbl : b.later = [] := T.later.trans hl
    have hbm : b.bits.length % 8 = 0 := by
      have := congrArg List.length T.bits
      simp [hdrTail, BR.adv] at this
      omega
    have hdr : ∀ k, encHdr hd k = bitsOf 8 0x47 ++ hdrTail hd k := fun k => by simp [encHdr, hdrTail]
    rcases hc with h0 | ⟨h1, hp, t⟩ | ⟨af, len, h2, hn, ha⟩ | ⟨af, len, b', h3, hn, ha, hle, hp, t⟩
    · rcases hf with h | ⟨h, _⟩ | ⟨h, _⟩ <;> omega
    · refine ⟨⟨hd, .payload q.payload⟩, s'.bits, ⟨w, hp⟩, trivial, ?_⟩
      rw [h1] at T
      simp only [encPkt, Body.afc, encBody, hdr]
      rw [hsync, T.bits, t.bits]
      simp
    · rcases hf with h | ⟨h, f, hf1, hf2, hf3⟩ | ⟨h, _⟩
      · omega
      · rw [ha] at hf1
        cases hf1
        obtain ⟨e1, e2, a, a1, a2, a3, a4⟩ := af_bits hbl hbm hn hf2
        refine ⟨⟨hd, .af a⟩, s'.bits, ⟨w, ?_, by omega⟩, a2, ?_⟩
        · cases a with
          | none => trivial
          | some a => exact ⟨a1 a rfl, by simp only [len?] at a3; omega⟩
        · rw [h2] at T
          simp only [encPkt, Body.afc, encBody, hdr]
          rw [hsync, T.bits, a4.bits]
          simp
      · omega
    · rcases hf with h | ⟨h, _⟩ | ⟨h, f, hf1, hf2⟩
      · omega
      · omega
      · rw [ha] at hf1
        cases hf1
        obtain ⟨e1, e2, a, a1, a2, a3, a4⟩ := af_bits hbl hbm hn hf2
        have hsm : len ≤ 183 := by unfold sub32 at hle; omega
        rw [sub32_le (by omega) (by decide)] at hp
        refine ⟨⟨hd, .afPayload a q.payload⟩, s'.bits, ⟨w, ?_, by omega⟩, a2, ?_⟩
        · cases a with
          | none => trivial
          | some a => exact ⟨a1 a rfl, by simp only [len?] at a3; omega⟩
        · rw [h3] at T
          simp only [encPkt, Body.afc, encBody, hdr]
          rw [hsync, T.bits, a4.bits, t.bits]
          simp
  obtain ⟨p, r, hw, hp, hbits⟩ := key
  have e := next_enc (r := r) (pos := s.pos) (stop := s.stop) (later := s.later) p0 p hw hp h8
  have es : s = ⟨encPkt p ++ r, s.pos, s.stop, s.later⟩ := by
    cases s
    simp only at hbits
    subst hbits
    rfl
  rw [← es, h] at e
  simp only [Prod.mk.injEq, true_and, St.mk.injEq] at e
  obtain ⟨rfl, rfl⟩ := e
  exact ⟨p, hw, hp, hbits, rfl, result_hdr _ _ _, result_body _ _ _⟩

/-- **C103** (partial: without the condition on the values the claim is false, see `C103_false`): at a sync byte, `Next`
returns a packet with faithful values exactly if the input begins with a packet of the standard (without splice data and
reserved bytes in the extension: C09). -/
theorem C103_partial {p0 : Packet} {s : BR} (h8 : s.pos % 8 = 0) (hb : s.bits.length % 8 = 0) (hl : s.later = [])
    (hs : natOfBits (s.bits.take 8) = 0x47) (hlen : 8 ≤ s.bits.length) :
    (∃ q s', Packet.next ⟨p0, s⟩ = (.ok (), ⟨q, s'⟩) ∧ Faithful q) ↔
      ∃ (p : Pkt) (r : List Bool), p.WF ∧ p.body.Plain ∧ s.bits = encPkt p ++ r := by
  constructor
  · rintro ⟨q, s', h, hf⟩
    obtain ⟨p, h1, h2, h3, _⟩ := C103_only_partial h8 hb hl hs hlen h hf
    exact ⟨p, s'.bits, h1, h2, h3⟩
  · rintro ⟨p, r, hw, hp, hbits⟩
    have e := next_enc (r := r) (pos := s.pos) (stop := s.stop) (later := s.later) p0 p hw hp h8
    have es : s = ⟨encPkt p ++ r, s.pos, s.stop, s.later⟩ := by
      cases s
      simp only at hbits
      subst hbits
      rfl
    rw [← es] at e
    refine ⟨_, _, e, ?_⟩
    rcases p with ⟨hd, b⟩
    cases b with
    | payload d => exact .inl rfl
    | af a => exact .inr (.inl ⟨rfl, viewAF? a, rfl, consistent_view? hp, (length_view? a).trans hw.2.2⟩)
    | afPayload a d => exact .inr (.inr ⟨rfl, viewAF? a, rfl, consistent_view? hp⟩)

theorem faithful_enc (p : Pkt) (hw : p.WF) (hp : p.body.Plain) : ∃ q s', Packet.next ⟨Packet.new, BR.ofBits (encPkt p)⟩ = (.ok (), ⟨q, s'⟩) ∧ Faithful q := by
  have hl := length_encPkt p hw
  have e : encPkt p = bitsOf 8 0x47 ++ (hdrTail p.hdr p.body.afc ++ encBody p.body) := by
    simp [encPkt, encHdr, hdrTail]
  refine (C103_partial (s := BR.ofBits (encPkt p)) rfl ?_ rfl ?_ ?_).2 ⟨p, [], hw, hp, by simp [BR.ofBits]⟩
  · have : (encPkt p).length % 8 = 0 := by omega
    exact this
  · show natOfBits ((encPkt p).take 8) = 0x47
    rw [e, List.take_append_of_le_length (by simp), List.take_of_length_le (by simp),
      natOfBits_bitsOf_of_lt (by decide)]
  · have : 8 ≤ (encPkt p).length := by omega
    exact this

/-- both sides of `C103_partial` hold of `pkt1`, which has an adaptation field with all its parts -/
example : ∃ q s', Packet.next ⟨Packet.new, BR.ofBits (encPkt pkt1)⟩ = (.ok (), ⟨q, s'⟩) ∧ Faithful q :=
  faithful_enc pkt1 pkt1_wf.1 pkt1_wf.2

/-- A packet whose adaptation field of one byte announces a PCR is accepted, and the PCR is reported as 0; one with the
reserved adaptation_field_control is accepted, four bytes long. -/
theorem C103_false : (∃ bs : List UInt8, bs.length = 188 ∧ (newPacket (BR.ofBytes bs)).1 = .ok () ∧
      (newPacket (BR.ofBytes bs)).2.pkt.adaptationField = some { pcrFlag := true, length := 1 } ∧
      ¬ ∃ (p : Pkt) (r : List Bool), p.WF ∧ p.body.Plain ∧ bitsOfBytes bs = encPkt p ++ r) ∧
    (∃ bs : List UInt8, bs.length = 4 ∧ (newPacket (BR.ofBytes bs)).1 = .ok () ∧
      (newPacket (BR.ofBytes bs)).2.pkt.adaptationFieldControl = 0) := by
  refine ⟨⟨0x47 :: 0x01 :: 0x00 :: 0x30 :: 1 :: 0x10 :: List.replicate 182 0, by decide +kernel, by decide +kernel, by decide +kernel,
    fun h => ?_⟩, ⟨[0x47, 0, 0, 0], rfl, by decide +kernel, by decide +kernel⟩⟩
  obtain ⟨q, s', e, hf⟩ := (C103_partial (p0 := Packet.new)
    (s := BR.ofBytes (0x47 :: 0x01 :: 0x00 :: 0x30 :: 1 :: 0x10 :: List.replicate 182 0)) rfl (by decide +kernel) rfl
    (by decide +kernel) (by decide +kernel)).2 h
  have e2 : (newPacket (BR.ofBytes (0x47 :: 0x01 :: 0x00 :: 0x30 :: 1 :: 0x10 :: List.replicate 182 0))).2.pkt = q := by
    unfold newPacket; rw [e]
  have e3 : (newPacket (BR.ofBytes (0x47 :: 0x01 :: 0x00 :: 0x30 :: 1 :: 0x10 :: List.replicate 182 0))).2.pkt.adaptationField =
    some { pcrFlag := true, length := 1 } := by decide +kernel
  have e4 : (newPacket (BR.ofBytes (0x47 :: 0x01 :: 0x00 :: 0x30 :: 1 :: 0x10 :: List.replicate 182 0))).2.pkt.adaptationFieldControl =
    3 := by decide +kernel
  rw [e2] at e3 e4
  rcases hf with h | ⟨h, _⟩ | ⟨_, f, hf1, hf2⟩
  · omega
  · omega
  · rw [e3] at hf1
    cases hf1
    have := hf2.room (by decide)
    revert this
    decide

end Mpeg.TS
