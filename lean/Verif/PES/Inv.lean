/-
Inversion of the PES parser: what a successful run has read.
-/
import Verif.PES.Lemmas
set_option linter.all false
namespace Mpeg.PES
open Spec
open Mpeg.TS (sub32)

/-- a field read by `BR.read`, as encoded bits -/
theorem read_inv' {k v : Nat} {s s' : BR} (h : BR.read k s = (.ok v, s')) :
    BR.Took s (bitsOf k v) s' ∧ v < 2 ^ k := by
  obtain ⟨l, h1, h2, h3⟩ := BR.read_inv h
  have : bitsOf k v = l := by rw [h3]; exact bitsOf_natOfBits' h2
  rw [this]
  exact ⟨h1, by rw [h3, ← h2]; exact natOfBits_lt l⟩

theorem skip_inv' {k : Nat} {u : Unit} {s s' : BR} (h : BR.skip k s = (.ok u, s')) :
    ∃ v, BR.Took s (bitsOf k v) s' ∧ v < 2 ^ k := by
  obtain ⟨l, h1, h2⟩ := BR.skip_inv h
  refine ⟨natOfBits l, ?_, h2 ▸ natOfBits_lt l⟩
  rw [bitsOf_natOfBits' h2]; exact h1

theorem marker_inv {k v : Nat} {u : Unit} {s s' : BR} (h : marker k v s = (.ok u, s')) :
    BR.Took s (bitsOf k v) s' ∧ v < 2 ^ k := by
  unfold marker at h
  cases hr : BR.read k s with
  | mk x y =>
    rw [hr] at h
    cases x with
    | ok x =>
      simp only at h
      by_cases hx : x = v
      · subst hx
        simp only [if_true, Prod.mk.injEq, true_and] at h
        subst h
        exact read_inv' hr
      · simp [hx] at h
    | err e => simp at h
    | panic => simp at h
    | hang => simp at h

theorem bitsOf_one_true : bitsOf 1 1 = [true] := rfl

theorem readTimeStamp_inv {m v : Nat} {s s' : BR} (h : readTimeStamp m s = (.ok v, s')) :
    ∃ t : Stamp, t.WF ∧ t.good m = true ∧ BR.Took s (encStamp t) s' ∧ v = t.value % 2 ^ 32 := by
  unfold readTimeStamp at h
  obtain ⟨_, s1, h1, h⟩ := Go.bind_eq_ok h
  obtain ⟨a, s2, h2, h⟩ := Go.bind_eq_ok h
  obtain ⟨_, s3, h3, h⟩ := Go.bind_eq_ok h
  obtain ⟨b, s4, h4, h⟩ := Go.bind_eq_ok h
  obtain ⟨_, s5, h5, h⟩ := Go.bind_eq_ok h
  obtain ⟨c, s6, h6, h⟩ := Go.bind_eq_ok h
  obtain ⟨_, s7, h7, h⟩ := Go.bind_eq_ok h
  simp only [Go.pure_apply, Prod.mk.injEq, Res.ok.injEq] at h
  obtain ⟨rfl, rfl⟩ := h
  obtain ⟨t1, l1⟩ := marker_inv h1
  obtain ⟨t2, l2⟩ := read_inv' h2
  obtain ⟨t3, _⟩ := marker_inv h3
  obtain ⟨t4, l4⟩ := read_inv' h4
  obtain ⟨t5, _⟩ := marker_inv h5
  obtain ⟨t6, l6⟩ := read_inv' h6
  obtain ⟨t7, _⟩ := marker_inv h7
  refine ⟨⟨m, a * 2 ^ 30 + b * 2 ^ 15 + c, true, true, true⟩, ⟨l1, by simp only; omega⟩,
    by simp [Stamp.good], ?_, ?_⟩
  · have := t1.trans (t2.trans (t3.trans (t4.trans (t5.trans (t6.trans t7)))))
    simp only [encStamp, List.append_assoc]
    rw [show (a * 2 ^ 30 + b * 2 ^ 15 + c) / 2 ^ 30 = a by omega,
      show (a * 2 ^ 30 + b * 2 ^ 15 + c) / 2 ^ 15 % 2 ^ 15 = b by omega,
      show (a * 2 ^ 30 + b * 2 ^ 15 + c) % 2 ^ 15 = c by omega]
    exact this
  · exact stamp_or (by omega) l4 l6

theorem readStamps_inv {f : Nat} (hf : f < 4) {x : Nat × Nat × Nat} {s s' : BR}
    (h : readStamps f s = (.ok x, s')) :
    ∃ t : Stamps, t.WF ∧ t.good = true ∧ t.flags = f ∧ BR.Took s (encStamps t) s' ∧
      x = (viewPts t, viewDts t, t.len) := by
  unfold readStamps at h
  by_cases h2 : f = 2
  · subst h2
    simp only [↓reduceIte] at h
    obtain ⟨p, s1, h1, h⟩ := Go.bind_eq_ok h
    simp only [Go.pure_apply, Prod.mk.injEq, Res.ok.injEq] at h
    obtain ⟨rfl, rfl⟩ := h
    obtain ⟨t, a, b, c, d⟩ := readTimeStamp_inv h1
    exact ⟨.pts t, a, b, rfl, c, by simp [viewPts, viewDts, Stamps.len, d]⟩
  · by_cases h3 : f = 3
    · subst h3
      simp only [↓reduceIte, h2, if_false] at h
      obtain ⟨p, s1, h1, h⟩ := Go.bind_eq_ok h
      obtain ⟨q, s2, h4, h⟩ := Go.bind_eq_ok h
      simp only [Go.pure_apply, Prod.mk.injEq, Res.ok.injEq] at h
      obtain ⟨rfl, rfl⟩ := h
      obtain ⟨t, a, b, c, d⟩ := readTimeStamp_inv h1
      obtain ⟨t', a', b', c', d'⟩ := readTimeStamp_inv h4
      exact ⟨.ptsDts t t', ⟨a, a'⟩, by simp [Stamps.good, b, b'], rfl, c.trans c',
        by simp [viewPts, viewDts, Stamps.len, d, d']⟩
    · simp only [h2, h3, if_false, Go.pure_apply, Prod.mk.injEq, Res.ok.injEq] at h
      obtain ⟨rfl, rfl⟩ := h
      have : f = 0 ∨ f = 1 := by omega
      rcases this with rfl | rfl
      · exact ⟨.none, trivial, rfl, rfl, BR.Took.refl _, rfl⟩
      · exact ⟨.forbidden, trivial, rfl, rfl, BR.Took.refl _, rfl⟩

theorem readStuffing_inv : ∀ {n : Nat} {u : Unit} {s s' : BR}, readStuffing n s = (.ok u, s') →
    ∃ l : List UInt8, l.length = n ∧ l.all (· == 255) = true ∧ BR.Took s (bitsOfBytes l) s'
  | 0, u, s, s', h => by
    simp only [readStuffing, Go.pure_apply, Prod.mk.injEq, Res.ok.injEq] at h
    obtain ⟨_, rfl⟩ := h
    exact ⟨[], rfl, rfl, BR.Took.refl _⟩
  | n + 1, u, s, s', h => by
    unfold readStuffing at h
    obtain ⟨v, s1, h1, h⟩ := Go.bind_eq_ok h
    obtain ⟨_, s2, h2, h⟩ := Go.bind_eq_ok h
    obtain ⟨l, a, b, c⟩ := readStuffing_inv h
    obtain ⟨t, lv⟩ := read_inv' h1
    by_cases hv : v = 255
    · subst hv
      simp only [beq_self_eq_true, Go.check_true, Go.pure_apply, Prod.mk.injEq, true_and] at h2
      subst h2
      refine ⟨255 :: l, by simp [a], by simp [b], ?_⟩
      rw [bitsOfBytes_cons]
      exact t.trans c
    · have : (v == 255) = false := by simpa using hv
      rw [this] at h2
      simp at h2

theorem readExact_inv {n : Nat} {bs : List UInt8} {s s' : BR} (h : readExact n s = (.ok bs, s')) :
    BR.Took s (bitsOfBytes bs) s' ∧ bs.length = n := by
  unfold readExact at h
  obtain ⟨r, s1, h1, h⟩ := Go.bind_eq_ok h
  obtain ⟨b, e⟩ := r
  cases e with
  | none =>
    simp only [Go.pure_apply, Prod.mk.injEq, Res.ok.injEq] at h
    obtain ⟨rfl, rfl⟩ := h
    exact BR.readFull_inv h1
  | some e => simp at h

theorem readPStd_inv {b : PStdBuffer} {s s' : BR} (h : readPStd s = (.ok b, s')) :
    b.scale < 2 ∧ b.size < 2 ^ 13 ∧ BR.Took s (encPStd (some (1, b.scale, b.size))) s' := by
  unfold readPStd at h
  obtain ⟨_, s1, h1, h⟩ := Go.bind_eq_ok h
  obtain ⟨sc, s2, h2, h⟩ := Go.bind_eq_ok h
  obtain ⟨sz, s3, h3, h⟩ := Go.bind_eq_ok h
  simp only [Go.pure_apply, Prod.mk.injEq, Res.ok.injEq] at h
  obtain ⟨rfl, rfl⟩ := h
  obtain ⟨t1, _⟩ := marker_inv h1
  obtain ⟨t2, l2⟩ := read_inv' h2
  obtain ⟨t3, l3⟩ := read_inv' h3
  refine ⟨l2, l3, ?_⟩
  simp only [encPStd, List.append_assoc]
  exact t1.trans (t2.trans t3)

theorem opt_panic_inv {b : Bool} {u : Unit} {s s' : BR}
    (h : Go.opt b () (Go.panic : Go BR Unit) s = (.ok u, s')) : b = false ∧ s' = s := by
  cases b
  · simp at h; exact ⟨rfl, h.symm⟩
  · simp at h

theorem optPriv_inv {b : Bool} {d : List UInt8} {s s' : BR}
    (h : Go.opt b [] (readExact 16) s = (.ok d, s')) :
    ∃ x : Option (List UInt8), x.isSome = b ∧ x.getD [] = d ∧ (∀ y ∈ x, y.length = 16) ∧
      BR.Took s (encPriv x) s' := by
  cases b
  · simp only [Go.opt_false, Go.pure_apply, Prod.mk.injEq, Res.ok.injEq] at h
    obtain ⟨rfl, rfl⟩ := h
    exact ⟨none, rfl, rfl, by simp, BR.Took.refl _⟩
  · obtain ⟨h1, h2⟩ := readExact_inv h
    exact ⟨some d, rfl, rfl, by simpa using h2, h1⟩

theorem optPStd_inv {b : Bool} {d : Option PStdBuffer} {s s' : BR}
    (h : Go.opt b none (some <$> readPStd) s = (.ok d, s')) :
    ∃ x : Option (Nat × Nat × Nat), x.isSome = b ∧ x.map (fun b => ⟨b.2.1, b.2.2⟩) = d ∧
      (∀ b ∈ x, b.1 < 4 ∧ b.2.1 < 2 ∧ b.2.2 < 2 ^ 13) ∧ x.all (fun b => b.1 == 1) = true ∧
      BR.Took s (encPStd x) s' := by
  cases b
  · simp only [Go.opt_false, Go.pure_apply, Prod.mk.injEq, Res.ok.injEq] at h
    obtain ⟨rfl, rfl⟩ := h
    exact ⟨none, rfl, rfl, by simp, rfl, BR.Took.refl _⟩
  · simp only [Go.opt_true, map_eq_pure_bind] at h
    obtain ⟨p, s1, h1, h⟩ := Go.bind_eq_ok h
    simp only [Go.pure_apply, Prod.mk.injEq, Res.ok.injEq] at h
    obtain ⟨rfl, rfl⟩ := h
    obtain ⟨l1, l2, t⟩ := readPStd_inv h1
    refine ⟨some (1, p.scale, p.size), rfl, rfl, ?_, rfl, t⟩
    intro b hb; simp at hb; subst hb; exact ⟨by simp, l1, l2⟩

theorem readExtension_inv {x : Extension × Nat} {s s' : BR} (h : readExtension s = (.ok x, s')) :
    ∃ e : Ext, e.WF ∧ e.good = true ∧ BR.Took s (encExt e) s' ∧ x = (viewExt e, e.len) := by
  unfold readExtension at h
  obtain ⟨f0, s1, h1, h⟩ := Go.bind_eq_ok h
  obtain ⟨f1, s2, h2, h⟩ := Go.bind_eq_ok h
  obtain ⟨f2, s3, h3, h⟩ := Go.bind_eq_ok h
  obtain ⟨f3, s4, h4, h⟩ := Go.bind_eq_ok h
  obtain ⟨_, s5, h5, h⟩ := Go.bind_eq_ok h
  obtain ⟨f4, s6, h6, h⟩ := Go.bind_eq_ok h
  obtain ⟨pv, s7, h7, h⟩ := Go.bind_eq_ok h
  obtain ⟨_, s8, h8, h⟩ := Go.bind_eq_ok h
  obtain ⟨_, s9, h9, h⟩ := Go.bind_eq_ok h
  obtain ⟨ps, s10, h10, h⟩ := Go.bind_eq_ok h
  obtain ⟨_, s11, h11, h⟩ := Go.bind_eq_ok h
  simp only [Go.pure_apply, Prod.mk.injEq, Res.ok.injEq] at h
  obtain ⟨rfl, rfl⟩ := h
  obtain ⟨rfl, rfl⟩ := opt_panic_inv h8
  obtain ⟨rfl, rfl⟩ := opt_panic_inv h9
  obtain ⟨rfl, rfl⟩ := opt_panic_inv h11
  obtain ⟨n, t5, _⟩ := skip_inv' h5
  obtain ⟨xp, rfl, rfl, p3, p4⟩ := optPriv_inv h7
  obtain ⟨xs, rfl, rfl, q3, q4, q5⟩ := optPStd_inv h10
  refine ⟨⟨xp, n, xs⟩, ⟨p3, q3⟩, q4, ?_, rfl⟩
  have := (BR.read1_inv h1).trans ((BR.read1_inv h2).trans ((BR.read1_inv h3).trans
    ((BR.read1_inv h4).trans (t5.trans ((BR.read1_inv h6).trans (p4.trans q5))))))
  simpa only [encExt, List.append_assoc, List.cons_append, List.nil_append] using this

theorem optExt_inv {b : Bool} {d : Option (Extension × Nat)} {s s' : BR}
    (h : Go.opt b none (some <$> readExtension) s = (.ok d, s')) :
    ∃ x : Option Ext, x.isSome = b ∧ (x.map fun e => (viewExt e, e.len)) = d ∧ (∀ e ∈ x, e.WF) ∧
      x.all Ext.good = true ∧ BR.Took s (encOptExt x) s' := by
  cases b
  · simp only [Go.opt_false, Go.pure_apply, Prod.mk.injEq, Res.ok.injEq] at h
    obtain ⟨rfl, rfl⟩ := h
    exact ⟨none, rfl, rfl, by simp, rfl, BR.Took.refl _⟩
  · simp only [Go.opt_true, map_eq_pure_bind] at h
    obtain ⟨p, s1, h1, h⟩ := Go.bind_eq_ok h
    simp only [Go.pure_apply, Prod.mk.injEq, Res.ok.injEq] at h
    obtain ⟨rfl, rfl⟩ := h
    obtain ⟨e, a, b, c, d⟩ := readExtension_inv h1
    exact ⟨some e, rfl, by simp [d], by simpa using a, by simpa using b, c⟩

theorem readFixed_inv {h : Header} {s s' : BR} (hh : readFixed s = (.ok h, s')) :
    h.ptsDtsFlags < 4 ∧ h.headerDataLength < 256 ∧ h.scramblingControl < 4 ∧
    h.presentationTimeStamp = 0 ∧ h.decodingTimeStamp = 0 ∧ h.extension = none ∧
    BR.Took s (bitsOf 2 h.scramblingControl ++ [h.priority, h.dataAlignmentIndicator, h.copyright,
      h.originalOrCopy] ++ bitsOf 2 h.ptsDtsFlags ++ [h.escrFlag, h.esRateFlag, h.dsmTrickModeFlag,
      h.additionalCopyInfoFlag, h.crcFlag, h.extensionFlag] ++ bitsOf 8 h.headerDataLength) s' := by
  unfold readFixed at hh
  obtain ⟨sc, s1, h1, hh⟩ := Go.bind_eq_ok hh
  obtain ⟨b0, s2, h2, hh⟩ := Go.bind_eq_ok hh
  obtain ⟨b1, s3, h3, hh⟩ := Go.bind_eq_ok hh
  obtain ⟨b2, s4, h4, hh⟩ := Go.bind_eq_ok hh
  obtain ⟨b3, s5, h5, hh⟩ := Go.bind_eq_ok hh
  obtain ⟨pd, s6, h6, hh⟩ := Go.bind_eq_ok hh
  obtain ⟨f0, s7, h7, hh⟩ := Go.bind_eq_ok hh
  obtain ⟨f1, s8, h8, hh⟩ := Go.bind_eq_ok hh
  obtain ⟨f2, s9, h9, hh⟩ := Go.bind_eq_ok hh
  obtain ⟨f3, s10, h10, hh⟩ := Go.bind_eq_ok hh
  obtain ⟨f4, s11, h11, hh⟩ := Go.bind_eq_ok hh
  obtain ⟨f5, s12, h12, hh⟩ := Go.bind_eq_ok hh
  obtain ⟨len, s13, h13, hh⟩ := Go.bind_eq_ok hh
  simp only [Go.pure_apply, Prod.mk.injEq, Res.ok.injEq] at hh
  obtain ⟨rfl, rfl⟩ := hh
  obtain ⟨t1, l1⟩ := read_inv' h1
  obtain ⟨t6, l6⟩ := read_inv' h6
  obtain ⟨t13, l13⟩ := read_inv' h13
  refine ⟨l6, l13, l1, rfl, rfl, rfl, ?_⟩
  have := t1.trans ((BR.read1_inv h2).trans ((BR.read1_inv h3).trans ((BR.read1_inv h4).trans
    ((BR.read1_inv h5).trans (t6.trans ((BR.read1_inv h7).trans ((BR.read1_inv h8).trans
    ((BR.read1_inv h9).trans ((BR.read1_inv h10).trans ((BR.read1_inv h11).trans
    ((BR.read1_inv h12).trans t13)))))))))))
  simpa only [List.append_assoc, List.cons_append, List.nil_append] using this

/-- What a successful header parse has read: the fixed part, time stamps and extension in good order, and
`sn` stuffing bytes, where `sn` is the remaining header length *as a `uint32`*. -/
theorem readHeader_inv {x : Header × Nat} {s s' : BR} (h : readHeader s = (.ok x, s')) :
    ∃ (hd : Hdr) (hdl : Nat), hd.mark = 2 ∧ hd.scrambling < 4 ∧ hd.stamps.WF ∧ (∀ e ∈ hd.ext, e.WF) ∧
      hd.defect = none ∧ hdl < 256 ∧
      hd.stuffing.length = sub32 hdl (hd.stamps.len + extLen hd.ext) ∧
      x.1 = { viewHdr hd with headerDataLength := hdl } ∧
      x.2 = (3 + hd.dataLen) % 2 ^ 32 ∧
      BR.Took s (bitsOf 2 2 ++ bitsOf 2 hd.scrambling ++
        [hd.priority, hd.alignment, hd.copyright, hd.original] ++ bitsOf 2 hd.stamps.flags ++
        [false, false, false, false, false, hd.ext.isSome] ++ bitsOf 8 hdl ++ encStamps hd.stamps ++
        encOptExt hd.ext ++ bitsOfBytes hd.stuffing) s' := by
  unfold readHeader at h
  obtain ⟨_, s1, h1, h⟩ := Go.bind_eq_ok h
  obtain ⟨f, s2, h2, h⟩ := Go.bind_eq_ok h
  obtain ⟨st, s3, h3, h⟩ := Go.bind_eq_ok h
  obtain ⟨_, s4, h4, h⟩ := Go.bind_eq_ok h
  obtain ⟨ex, s5, h5, h⟩ := Go.bind_eq_ok h
  obtain ⟨_, s6, h6, h⟩ := Go.bind_eq_ok h
  simp only [Go.pure_apply, Prod.mk.injEq, Res.ok.injEq] at h
  obtain ⟨rfl, rfl⟩ := h
  obtain ⟨t1, _⟩ := marker_inv h1
  obtain ⟨l1, l2, l3, z1, z2, z3, t2⟩ := readFixed_inv h2
  obtain ⟨ts, w1, g1, e1, t3, rfl⟩ := readStamps_inv l1 h3
  obtain ⟨hu, rfl⟩ := opt_panic_inv h4
  obtain ⟨xe, e2, rfl, w2, g2, t4⟩ := optExt_inv h5
  obtain ⟨sl, e3, g3, t5⟩ := readStuffing_inv h6
  simp only [Header.unsupported, Bool.or_eq_false_iff] at hu
  obtain ⟨⟨⟨⟨u1, u2⟩, u3⟩, u4⟩, u5⟩ := hu
  rw [extMap_len] at e3
  simp only [extMap_len]
  refine ⟨⟨2, f.scramblingControl, f.priority, f.dataAlignmentIndicator, f.copyright, f.originalOrCopy,
    ts, xe, sl⟩, f.headerDataLength, rfl, l3, w1, w2, ?_, l2, e3, ?_, ?_, ?_⟩
  · simp [Hdr.defect, g1, g2, g3]
  · simp only [viewHdr, e1, e2]
    cases f
    simp only at u1 u2 u3 u4 u5 z1 z2 z3 ⊢
    subst u1 u2 u3 u4 u5
    simp [Option.map_map, Function.comp_def]
  · simp only [Hdr.dataLen]
    rw [← e3, Nat.add_assoc]
  · have := t1.trans (t2.trans (t3.trans (t4.trans t5)))
    rw [u1, u2, u3, u4, u5, ← e1, ← e2] at this
    simpa only [List.append_assoc] using this

theorem length_encStamps (t : Stamps) : (encStamps t).length = 8 * t.len := by
  cases t <;> simp [encStamps, Stamps.len, length_encStamp]

theorem length_encOptExt (x : Option Ext) (h : ∀ e ∈ x, e.WF) :
    (encOptExt x).length = 8 * extLen x := by
  cases x with
  | none => rfl
  | some x =>
    have hx := h x rfl
    obtain ⟨pv, rs, ps⟩ := x
    rcases pv with _ | pv <;> rcases ps with _ | ⟨m, a, b⟩ <;>
      simp [encOptExt, encExt, extLen, Ext.len, encPriv, encPStd]
    · have := hx.1 pv rfl; simp [this]
    · have := hx.1 pv rfl; simp [this]

theorem extLen_le (x : Option Ext) : extLen x ≤ 19 := by
  cases x with
  | none => simp [extLen]
  | some x => simp only [extLen, Ext.len]; split <;> split <;> omega

theorem stampsLen_le (x : Stamps) : x.len ≤ 10 := by cases x <;> simp [Stamps.len]

theorem length_hdrBits (hd : Hdr) (hdl : Nat) (h : ∀ e ∈ hd.ext, e.WF) :
    (bitsOf 2 2 ++ bitsOf 2 hd.scrambling ++
        [hd.priority, hd.alignment, hd.copyright, hd.original] ++ bitsOf 2 hd.stamps.flags ++
        [false, false, false, false, false, hd.ext.isSome] ++ bitsOf 8 hdl ++ encStamps hd.stamps ++
        encOptExt hd.ext ++ bitsOfBytes hd.stuffing).length = 8 * (3 + hd.dataLen) := by
  simp only [List.length_append, length_bitsOf, length_bitsOfBytes, length_encStamps,
    length_encOptExt _ h, List.length_cons, List.length_nil, Hdr.dataLen]
  omega

/-- On an input below 4 GiB a header is accepted only if it is well formed, and it is reported as such. -/
theorem readHeader_sound {x : Header × Nat} {s s' : BR} (h : readHeader s = (.ok x, s'))
    (hs : s.bits.length < 8 * 2 ^ 32) :
    ∃ hd : Hdr, hd.WF ∧ hd.defect = none ∧ BR.Took s (encHdr hd) s' ∧
      x = (viewHdr hd, 3 + hd.dataLen) := by
  obtain ⟨hd, hdl, e1, l1, w1, w2, d1, l2, e2, e3, e4, t⟩ := readHeader_inv h
  have hl := length_hdrBits hd hdl w2
  have hb := congrArg List.length t.bits
  rw [List.length_append, hl] at hb
  have b1 := extLen_le hd.ext
  have b2 := stampsLen_le hd.stamps
  have hdd : hd.dataLen = hd.stamps.len + extLen hd.ext + hd.stuffing.length := rfl
  have hle : hd.stamps.len + extLen hd.ext ≤ hdl := by
    apply Classical.byContradiction; intro hc
    have : hd.stuffing.length = 2 ^ 32 + hdl - (hd.stamps.len + extLen hd.ext) := by
      rw [e2]; unfold sub32; omega
    omega
  have hdl' : hd.dataLen = hdl := by
    rw [hdd, e2, sub32_of_le hle (by omega)]; omega
  refine ⟨hd, ⟨by omega, l1, w1, w2, by omega⟩, d1, ?_, ?_⟩
  · simp only [encHdr, encFixed, hdl', e1]
    exact t
  · obtain ⟨x1, x2⟩ := x
    simp only at e3 e4
    rw [e3, e4, ← hdl', Nat.mod_eq_of_lt (by omega)]
    simp [viewHdr]

end Mpeg.PES
