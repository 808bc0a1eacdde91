/-
Inversion of the header parsers of package video: what a successful call has read.
-/
import Verif.Video.HeaderProps
import Verif.PS.AcceptProps
import Verif.Video.ExtLemmas
set_option linter.all false
namespace Mpeg.Video
open Spec
open _root_.Mpeg.BR (Took)

theorem startCode_inv {c : Nat} {u : Unit} {s s' : BR} (h : startCode c s = (.ok u, s')) : Took s (bitsOf 32 c) s' :=
  PS.codeAssert_inv h
theorem extensionID_inv {c : Nat} {u : Unit} {s s' : BR} (h : extensionID c s = (.ok u, s')) : Took s (bitsOf 4 c) s' :=
  PS.codeAssert_inv h

theorem markerBit_inv {u : Unit} {s s' : BR} (h : markerBit s = (.ok u, s')) : Took s [true] s' := by
  unfold markerBit at h
  obtain ⟨b, s1, h1, h⟩ := Go.bind_eq_ok h
  cases b with
  | true =>
    simp only [Go.check_true, Go.pure_apply, Prod.mk.injEq, true_and] at h
    subst h
    exact BR.read1_inv h1
  | false => simp at h

/-- An accepted `next_start_code`. -/
theorem nextStartCode_inv {u : Unit} {s s' : BR} (h : nextStartCode s = (.ok u, s')) :
    ∃ t : Tail, t.OK s.pos ∧ s.bits = t.bits ∧ s' = t.after s.pos s.stop s.later := by
  obtain ⟨k, r, hb, rfl⟩ := (C34 s s').mp h
  have hl : padding s.pos ≤ s.bits.length := by
    have := congrArg List.length hb
    simp only [fromBoundary, List.length_drop, List.length_append, show prefix1.length = 24 from rfl] at this
    omega
  refine ⟨⟨s.bits.take (padding s.pos), k, r⟩, ?_, ?_, ?_⟩
  · unfold Tail.OK; rw [List.length_take]; omega
  · unfold Tail.bits
    rw [← hb]
    exact (List.take_append_drop _ _).symm
  · unfold Tail.after
    rw [List.length_take, Nat.min_eq_left hl]

theorem readBytes_inv : ∀ (n : Nat) {l : List Nat} {s s' : BR}, readBytes n s = (.ok l, s') →
    Took s (l.flatMap (bitsOf 8)) s' ∧ l.length = n ∧ ∀ x ∈ l, x < 256
  | 0, l, s, s', h => by
    simp only [readBytes, Go.pure_apply, Prod.mk.injEq, Res.ok.injEq] at h
    obtain ⟨rfl, rfl⟩ := h
    exact ⟨.refl _, rfl, by simp⟩
  | n + 1, l, s, s', h => by
    simp only [readBytes] at h
    obtain ⟨b, s1, h1, h⟩ := Go.bind_eq_ok h
    obtain ⟨r, s2, h2, h⟩ := Go.bind_eq_ok h
    simp only [Go.pure_apply, Prod.mk.injEq, Res.ok.injEq] at h
    obtain ⟨rfl, rfl⟩ := h
    obtain ⟨t1, b1⟩ := PES.read_inv' h1
    obtain ⟨t2, l2, b2⟩ := readBytes_inv n h2
    refine ⟨?_, by rw [List.length_cons, l2], ?_⟩
    · rw [List.flatMap_cons]; exact t1.trans t2
    · intro x hx
      rcases List.mem_cons.mp hx with rfl | hx
      · exact b1
      · exact b2 x hx

/-- A load flag and the matrix behind it. -/
theorem load_inv {f : Bool} {m : Matrix} {s s1 s' : BR} (h1 : BR.read1 s = (.ok f, s1))
    (h2 : Go.opt f zeroMatrix readMatrix s1 = (.ok m, s')) :
    ∃ x : Option Mat, optWF x ∧ Took s (encLoad x) s' ∧ f = x.isSome ∧ m = x.getD zeroMatrix := by
  have t1 := BR.read1_inv h1
  cases f with
  | false =>
    simp only [Go.opt_false, Prod.mk.injEq, Res.ok.injEq] at h2
    obtain ⟨rfl, rfl⟩ := h2
    exact ⟨none, by simp [optWF], t1, rfl, rfl⟩
  | true =>
    simp only [Go.opt_true] at h2
    obtain ⟨t2, l2, b2⟩ := readBytes_inv 64 h2
    refine ⟨some m, ?_, t1.trans t2, rfl, rfl⟩
    intro x hx
    cases hx
    exact ⟨l2, b2⟩

theorem took_mk {s s' : BR} {l : List Bool} (h : Took s l s') :
    s = ⟨l ++ s'.bits, s.pos, s.stop, s.later⟩ ∧ s' = ⟨s'.bits, s.pos + l.length, s.stop, s.later⟩ := by
  obtain ⟨h1, h2, h3, h4⟩ := h
  cases s; cases s'
  simp only at h1 h2 h3 h4
  subst h1 h2 h3 h4
  exact ⟨rfl, rfl⟩

/-- A header followed by `next_start_code`. -/
theorem tail_inv {s s1 s' : BR} {l : List Bool} {u : Unit} (h : Took s l s1) (hn : nextStartCode s1 = (.ok u, s')) :
    ∃ t : Tail, t.OK (s.pos + l.length) ∧ s.bits = l ++ t.bits ∧ s' = t.after (s.pos + l.length) s.stop s.later := by
  obtain ⟨t, h1, h2, h3⟩ := nextStartCode_inv hn
  rw [h.pos] at h1 h3
  exact ⟨t, h1, by rw [h.bits, h2], by rw [h3, h.stop, h.later]⟩

/-! ### sequence header -/

theorem readSequenceHeader_inv {x : SequenceHeader} {s s' : BR} (h : readSequenceHeader s = (.ok x, s')) :
    ∃ (e : Seq) (t : Tail), e.WF ∧ x = viewSeq e ∧ t.OK (s.pos + (encSeq e).length) ∧ s.bits = encSeq e ++ t.bits ∧
      s' = t.after (s.pos + (encSeq e).length) s.stop s.later := by
  unfold readSequenceHeader at h
  obtain ⟨_, s1, h1, h⟩ := Go.bind_eq_ok h
  obtain ⟨v1, s2, h2, h⟩ := Go.bind_eq_ok h
  obtain ⟨v2, s3, h3, h⟩ := Go.bind_eq_ok h
  obtain ⟨v3, s4, h4, h⟩ := Go.bind_eq_ok h
  obtain ⟨v4, s5, h5, h⟩ := Go.bind_eq_ok h
  obtain ⟨v5, s6, h6, h⟩ := Go.bind_eq_ok h
  obtain ⟨_, s7, h7, h⟩ := Go.bind_eq_ok h
  obtain ⟨v6, s8, h8, h⟩ := Go.bind_eq_ok h
  obtain ⟨v7, s9, h9, h⟩ := Go.bind_eq_ok h
  obtain ⟨f1, s10, h10, h⟩ := Go.bind_eq_ok h
  obtain ⟨m1, s11, h11, h⟩ := Go.bind_eq_ok h
  obtain ⟨f2, s12, h12, h⟩ := Go.bind_eq_ok h
  obtain ⟨m2, s13, h13, h⟩ := Go.bind_eq_ok h
  obtain ⟨_, s14, h14, h⟩ := Go.bind_eq_ok h
  simp only [Go.pure_apply, Prod.mk.injEq, Res.ok.injEq] at h
  obtain ⟨rfl, rfl⟩ := h
  obtain ⟨t2, b2⟩ := PES.read_inv' h2
  obtain ⟨t3, b3⟩ := PES.read_inv' h3
  obtain ⟨t4, b4⟩ := PES.read_inv' h4
  obtain ⟨t5, b5⟩ := PES.read_inv' h5
  obtain ⟨t6, b6⟩ := PES.read_inv' h6
  obtain ⟨t8, b8⟩ := PES.read_inv' h8
  obtain ⟨x1, w1, t10, rfl, rfl⟩ := load_inv h10 h11
  obtain ⟨x2, w2, t12, rfl, rfl⟩ := load_inv h12 h13
  have t : Took s (encSeq ⟨v1, v2, v3, v4, v5, v6, v7, x1, x2⟩) s13 := by
    have := (startCode_inv h1).trans (t2.trans (t3.trans (t4.trans (t5.trans (t6.trans ((markerBit_inv h7).trans
      (t8.trans ((BR.read1_inv h9).trans (t10.trans t12)))))))))
    simpa only [encSeq, List.append_assoc] using this
  obtain ⟨tl, k1, k2, k3⟩ := tail_inv t h14
  exact ⟨_, tl, ⟨b2, b3, b4, b5, b6, b8, w1, w2⟩, rfl, k1, k2, k3⟩

/-! ### sequence extension -/

theorem readSequenceExtension_inv {x : SequenceExtension} {s s' : BR} (h : readSequenceExtension s = (.ok x, s')) :
    ∃ e : SeqExt, e.WF ∧ e.marker = true ∧ x = viewSeqExt e ∧ Took s (encSeqExt e) s' := by
  unfold readSequenceExtension at h
  obtain ⟨_, s1, h1, h⟩ := Go.bind_eq_ok h
  obtain ⟨_, s2, h2, h⟩ := Go.bind_eq_ok h
  obtain ⟨v3, s3, h3, h⟩ := Go.bind_eq_ok h
  obtain ⟨v4, s4, h4, h⟩ := Go.bind_eq_ok h
  obtain ⟨v5, s5, h5, h⟩ := Go.bind_eq_ok h
  obtain ⟨v6, s6, h6, h⟩ := Go.bind_eq_ok h
  obtain ⟨v7, s7, h7, h⟩ := Go.bind_eq_ok h
  obtain ⟨v8, s8, h8, h⟩ := Go.bind_eq_ok h
  obtain ⟨_, s9, h9, h⟩ := Go.bind_eq_ok h
  obtain ⟨v10, s10, h10, h⟩ := Go.bind_eq_ok h
  obtain ⟨v11, s11, h11, h⟩ := Go.bind_eq_ok h
  obtain ⟨v12, s12, h12, h⟩ := Go.bind_eq_ok h
  obtain ⟨v13, s13, h13, h⟩ := Go.bind_eq_ok h
  simp only [Go.pure_apply, Prod.mk.injEq, Res.ok.injEq] at h
  obtain ⟨rfl, rfl⟩ := h
  obtain ⟨t3, b3⟩ := PES.read_inv' h3
  obtain ⟨t4, b4⟩ := PES.read_inv' h4
  obtain ⟨t5, b5⟩ := PES.read_inv' h5
  obtain ⟨t6, b6⟩ := PES.read_inv' h6
  obtain ⟨t7, b7⟩ := PES.read_inv' h7
  obtain ⟨t8, b8⟩ := PES.read_inv' h8
  obtain ⟨t10, b10⟩ := PES.read_inv' h10
  obtain ⟨t11, b11⟩ := PES.read_inv' h11
  obtain ⟨t12, b12⟩ := PES.read_inv' h12
  obtain ⟨t13, b13⟩ := PES.read_inv' h13
  refine ⟨⟨v3, v4, v5, v6, v7, v8, true, v10, v11, v12, v13⟩, ⟨b3, b4, b5, b6, b7, b8, b10, b11, b12, b13⟩, rfl, rfl, ?_⟩
  have := (startCode_inv h1).trans ((extensionID_inv h2).trans (t3.trans (t4.trans (t5.trans (t6.trans (t7.trans (t8.trans
    ((markerBit_inv h9).trans (t10.trans (t11.trans (t12.trans t13)))))))))))
  simpa only [encSeqExt, List.append_assoc] using this

/-! ### group of pictures header -/

theorem timeOf_split (v : Nat) (hv : v < 2 ^ 25) (c b : Bool) :
    ∃ e : GOP, e.WF ∧ e.closed = c ∧ e.broken = b ∧ timeOf e = v := by
  have hb : ∀ n < 2, (n == 1).toNat = n := by decide
  refine ⟨⟨v / 2 ^ 24 == 1, v / 2 ^ 19 % 2 ^ 5, v / 2 ^ 13 % 2 ^ 6, v / 2 ^ 12 % 2 == 1, v / 2 ^ 6 % 2 ^ 6, v % 2 ^ 6, c, b⟩,
    ⟨?_, ?_, ?_, ?_⟩, rfl, rfl, ?_⟩
  · exact Nat.mod_lt _ (by decide)
  · exact Nat.mod_lt _ (by decide)
  · exact Nat.mod_lt _ (by decide)
  · exact Nat.mod_lt _ (by decide)
  · unfold timeOf
    dsimp only
    rw [hb _ (by omega), hb _ (by omega)]
    omega

theorem readGOPHeader_inv {x : GOPHeader} {s s' : BR} (h : readGOPHeader s = (.ok x, s')) :
    ∃ (e : GOP) (t : Tail), e.WF ∧ x = ⟨timeOf e, e.closed, e.broken⟩ ∧ t.OK (s.pos + (encGOP e).length) ∧
      s.bits = encGOP e ++ t.bits ∧ s' = t.after (s.pos + (encGOP e).length) s.stop s.later := by
  unfold readGOPHeader at h
  obtain ⟨_, s1, h1, h⟩ := Go.bind_eq_ok h
  obtain ⟨v2, s2, h2, h⟩ := Go.bind_eq_ok h
  obtain ⟨v3, s3, h3, h⟩ := Go.bind_eq_ok h
  obtain ⟨v4, s4, h4, h⟩ := Go.bind_eq_ok h
  obtain ⟨_, s5, h5, h⟩ := Go.bind_eq_ok h
  simp only [Go.pure_apply, Prod.mk.injEq, Res.ok.injEq] at h
  obtain ⟨rfl, rfl⟩ := h
  obtain ⟨t2, b2⟩ := PES.read_inv' h2
  obtain ⟨e, w, rfl, rfl, rfl⟩ := timeOf_split v2 b2 v3 v4
  have t : Took s (encGOP e) s4 := by
    have := (startCode_inv h1).trans (t2.trans ((BR.read1_inv h3).trans (BR.read1_inv h4)))
    unfold encGOP
    rw [timeOf_bits e w]
    simpa only [List.append_assoc] using this
  obtain ⟨tl, k1, k2, k3⟩ := tail_inv t h5
  exact ⟨e, tl, w, rfl, k1, k2, k3⟩

/-! ### picture header -/

theorem extraLoop_inv : ∀ (fuel : Nat) {l : List Nat} {s s' : BR}, extraInformationLoop fuel s = (.ok l, s') →
    Took s (l.flatMap (fun x => true :: bitsOf 8 x)) s' ∧ (∀ x ∈ l, x < 256) ∧ ∃ r, s'.bits = false :: r
  | 0, l, s, s', h => by simp [extraInformationLoop, Go.hang] at h
  | fuel + 1, l, s, s', h => by
    simp only [extraInformationLoop] at h
    obtain ⟨v, s0, h0, h⟩ := Go.bind_eq_ok h
    obtain ⟨rfl, hl, hv⟩ := BR.peek_inv h0
    cases hb : s0.bits with
    | nil => rw [hb] at hl; simp at hl
    | cons b r =>
      rw [hb] at hv
      simp only [List.take_succ_cons, List.take_zero] at hv
      cases b with
      | false =>
        have : v = 0 := hv
        subst this
        rw [if_neg (by decide)] at h
        simp only [Go.pure_apply, Prod.mk.injEq, Res.ok.injEq] at h
        obtain ⟨rfl, rfl⟩ := h
        exact ⟨.refl _, by simp, r, hb⟩
      | true =>
        have : v = 1 := hv
        subst this
        rw [if_pos rfl] at h
        obtain ⟨_, s1, h1, h⟩ := Go.bind_eq_ok h
        obtain ⟨w, s2, h2, h⟩ := Go.bind_eq_ok h
        obtain ⟨r', s3, h3, h⟩ := Go.bind_eq_ok h
        simp only [Go.pure_apply, Prod.mk.injEq, Res.ok.injEq] at h
        obtain ⟨rfl, rfl⟩ := h
        obtain ⟨l1, t1, e1⟩ := BR.skip_inv h1
        have : l1 = [true] := by
          have := t1.bits
          rw [hb] at this
          match l1, e1 with
          | [y], _ => simp only [List.cons_append, List.nil_append, List.cons.injEq] at this; rw [← this.1]
        subst this
        obtain ⟨t2, b2⟩ := PES.read_inv' h2
        obtain ⟨t3, b3, r3⟩ := extraLoop_inv fuel h3
        refine ⟨?_, ?_, r3⟩
        · rw [List.flatMap_cons, List.cons_append]
          exact t1.trans (t2.trans t3)
        · intro x hx
          rcases List.mem_cons.mp hx with rfl | hx
          · exact b2
          · exact b3 x hx

theorem opt_read_inv {f : Bool} {k v : Nat} {s s' : BR} (h : Go.opt f 0 (BR.read k) s = (.ok v, s')) :
    (f = true ∧ Took s (bitsOf k v) s' ∧ v < 2 ^ k) ∨ (f = false ∧ v = 0 ∧ s' = s) := by
  cases f with
  | true => exact .inl ⟨rfl, PES.read_inv' h⟩
  | false =>
    simp only [Go.opt_false, Go.pure_apply, Prod.mk.injEq, Res.ok.injEq] at h
    exact .inr ⟨rfl, h.1.symm, h.2.symm⟩

theorem readPictureHeader_inv {x : PictureHeader} {s s' : BR} (h : readPictureHeader s = (.ok x, s')) :
    ∃ e : Pic, e.WF ∧ x = viewPic e ∧ Took s (encPic e) s' := by
  unfold readPictureHeader at h
  obtain ⟨_, s1, h1, h⟩ := Go.bind_eq_ok h
  obtain ⟨v2, s2, h2, h⟩ := Go.bind_eq_ok h
  obtain ⟨v3, s3, h3, h⟩ := Go.bind_eq_ok h
  obtain ⟨v4, s4, h4, h⟩ := Go.bind_eq_ok h
  obtain ⟨v5, s5, h5, h⟩ := Go.bind_eq_ok h
  obtain ⟨v6, s6, h6, h⟩ := Go.bind_eq_ok h
  obtain ⟨v7, s7, h7, h⟩ := Go.bind_eq_ok h
  obtain ⟨v8, s8, h8, h⟩ := Go.bind_eq_ok h
  obtain ⟨v9, s9, h9, h⟩ := Go.bind_eq_ok h
  obtain ⟨_, s10, h10, h⟩ := Go.bind_eq_ok h
  simp only [Go.pure_apply, Prod.mk.injEq, Res.ok.injEq] at h
  obtain ⟨rfl, rfl⟩ := h
  obtain ⟨t2, b2⟩ := PES.read_inv' h2
  obtain ⟨t3, b3⟩ := PES.read_inv' h3
  obtain ⟨t4, b4⟩ := PES.read_inv' h4
  unfold readExtraInformation at h9
  obtain ⟨t9, b9, r9, e9⟩ := extraLoop_inv _ h9
  obtain ⟨l, t10, hl⟩ := BR.skip_inv h10
  have hl : l = [false] := by
    have := t10.bits
    rw [e9] at this
    match l, hl with
    | [y], _ => simp only [List.cons_append, List.nil_append, List.cons.injEq] at this; rw [← this.1]
  subst hl
  have t0 := (startCode_inv h1).trans (t2.trans (t3.trans t4))
  have hk : ∃ k : PicKind, k.WF ∧ k.code = v3 ∧ Took s4 k.enc s8 ∧ (v5, v6, v7, v8) = vectorFields k := by
    rcases opt_read_inv h5 with ⟨p5, t5, b5⟩ | ⟨p5, rfl, rfl⟩
    · rcases opt_read_inv h6 with ⟨p6, t6, b6⟩ | ⟨p6, rfl, rfl⟩
      · rcases opt_read_inv h7 with ⟨p7, t7, b7⟩ | ⟨p7, rfl, rfl⟩
        · rcases opt_read_inv h8 with ⟨p8, t8, b8⟩ | ⟨p8, rfl, rfl⟩
          · refine ⟨.b v5 v6 v7 v8, ⟨b5, b6, b7, b8⟩, (eq_of_beq p7).symm, ?_, rfl⟩
            simpa only [PicKind.enc, List.append_assoc] using t5.trans (t6.trans (t7.trans t8))
          · rw [p7] at p8; cases p8
        · rcases opt_read_inv h8 with ⟨p8, t8, b8⟩ | ⟨p8, rfl, rfl⟩
          · rw [p7] at p8; cases p8
          · refine ⟨.p v5 v6, ⟨b5, b6⟩, ?_, t5.trans t6, rfl⟩
            rw [p7, Bool.or_false] at p5
            exact (eq_of_beq p5).symm
      · rw [p5] at p6; cases p6
    · rcases opt_read_inv h6 with ⟨p6, t6, b6⟩ | ⟨p6, rfl, rfl⟩
      · rw [p5] at p6; cases p6
      · have p5' := p5
        rw [Bool.or_eq_false_iff] at p5
        rcases opt_read_inv h7 with ⟨p7, t7, b7⟩ | ⟨p7, rfl, rfl⟩
        · rw [p5.2] at p7; cases p7
        rcases opt_read_inv h8 with ⟨p8, t8, b8⟩ | ⟨p8, rfl, rfl⟩
        · rw [p5.2] at p8; cases p8
        exact ⟨.other v3, ⟨b3, by simpa using p5.1, by simpa using p5.2⟩, rfl, .refl _, rfl⟩
  obtain ⟨k, wk, ck, tk, vk⟩ := hk
  refine ⟨⟨v2, k, v4, v9⟩, ⟨b2, wk, b4, b9⟩, ?_, ?_⟩
  · unfold viewPic
    cases k <;> cases vk <;> subst ck <;> rfl
  · have := t0.trans (tk.trans (t9.trans t10))
    simp only [encPic, encExtra, ck]
    simpa only [List.append_assoc] using this

/-! ### picture coding extension -/

theorem opt_read1_inv {f b : Bool} {s s' : BR} (h : Go.opt f false BR.read1 s = (.ok b, s')) :
    (f = true ∧ Took s [b] s') ∨ (f = false ∧ b = false ∧ s' = s) := by
  cases f with
  | true => exact .inl ⟨rfl, BR.read1_inv h⟩
  | false =>
    simp only [Go.opt_false, Go.pure_apply, Prod.mk.injEq, Res.ok.injEq] at h
    exact .inr ⟨rfl, h.1.symm, h.2.symm⟩

theorem readPictureCodingExtension_inv {x : PictureCodingExtension} {s s' : BR}
    (h : readPictureCodingExtension s = (.ok x, s')) : ∃ e : PicExt, e.WF ∧ x = viewPicExt e ∧ Took s (encPicExt e) s' := by
  unfold readPictureCodingExtension at h
  obtain ⟨_, s1, h1, h⟩ := Go.bind_eq_ok h
  obtain ⟨_, s2, h2, h⟩ := Go.bind_eq_ok h
  obtain ⟨v3, s3, h3, h⟩ := Go.bind_eq_ok h
  obtain ⟨v4, s4, h4, h⟩ := Go.bind_eq_ok h
  obtain ⟨v5, s5, h5, h⟩ := Go.bind_eq_ok h
  obtain ⟨v6, s6, h6, h⟩ := Go.bind_eq_ok h
  obtain ⟨v7, s7, h7, h⟩ := Go.bind_eq_ok h
  obtain ⟨v8, s8, h8, h⟩ := Go.bind_eq_ok h
  obtain ⟨v9, s9, h9, h⟩ := Go.bind_eq_ok h
  obtain ⟨v10, s10, h10, h⟩ := Go.bind_eq_ok h
  obtain ⟨v11, s11, h11, h⟩ := Go.bind_eq_ok h
  obtain ⟨v12, s12, h12, h⟩ := Go.bind_eq_ok h
  obtain ⟨v13, s13, h13, h⟩ := Go.bind_eq_ok h
  obtain ⟨v14, s14, h14, h⟩ := Go.bind_eq_ok h
  obtain ⟨v15, s15, h15, h⟩ := Go.bind_eq_ok h
  obtain ⟨v16, s16, h16, h⟩ := Go.bind_eq_ok h
  obtain ⟨v17, s17, h17, h⟩ := Go.bind_eq_ok h
  obtain ⟨c, s18, h18, h⟩ := Go.bind_eq_ok h
  obtain ⟨v19, s19, h19, h⟩ := Go.bind_eq_ok h
  obtain ⟨v20, s20, h20, h⟩ := Go.bind_eq_ok h
  obtain ⟨v21, s21, h21, h⟩ := Go.bind_eq_ok h
  obtain ⟨v22, s22, h22, h⟩ := Go.bind_eq_ok h
  obtain ⟨v23, s23, h23, h⟩ := Go.bind_eq_ok h
  simp only [Go.pure_apply, Prod.mk.injEq, Res.ok.injEq] at h
  obtain ⟨rfl, rfl⟩ := h
  obtain ⟨t3, b3⟩ := PES.read_inv' h3
  obtain ⟨t4, b4⟩ := PES.read_inv' h4
  obtain ⟨t5, b5⟩ := PES.read_inv' h5
  obtain ⟨t6, b6⟩ := PES.read_inv' h6
  obtain ⟨t7, b7⟩ := PES.read_inv' h7
  obtain ⟨t8, b8⟩ := PES.read_inv' h8
  have t9 := BR.read1_inv h9
  obtain ⟨t10, b10⟩ := PES.read_inv' h10
  have t11 := BR.read1_inv h11
  obtain ⟨t12, b12⟩ := PES.read_inv' h12
  obtain ⟨t13, b13⟩ := PES.read_inv' h13
  obtain ⟨t14, b14⟩ := PES.read_inv' h14
  have t15 := BR.read1_inv h15
  have t16 := BR.read1_inv h16
  have t17 := BR.read1_inv h17
  have t18 := BR.read1_inv h18
  have hc : ∃ k : Option Composite, (∀ c ∈ k, c.fieldSequence < 8 ∧ c.burstAmplitude < 128 ∧ c.subCarrierPhase < 256) ∧
      Took s17 (encComposite k) s23 ∧ c = k.isSome ∧ v19 = (k.map (·.vAxis)).getD false ∧
      v20 = (k.map (·.fieldSequence)).getD 0 ∧ v21 = (k.map (·.subCarrier)).getD false ∧
      v22 = (k.map (·.burstAmplitude)).getD 0 ∧ v23 = (k.map (·.subCarrierPhase)).getD 0 := by
    cases c with
    | false =>
      simp only [Go.opt_false, Go.pure_apply, Prod.mk.injEq, Res.ok.injEq] at h19 h20 h21 h22 h23
      obtain ⟨rfl, rfl⟩ := h19
      obtain ⟨rfl, rfl⟩ := h20
      obtain ⟨rfl, rfl⟩ := h21
      obtain ⟨rfl, rfl⟩ := h22
      obtain ⟨rfl, rfl⟩ := h23
      exact ⟨none, by simp, t18, rfl, rfl, rfl, rfl, rfl, rfl⟩
    | true =>
      simp only [Go.opt_true] at h19 h20 h21 h22 h23
      obtain ⟨t20, b20⟩ := PES.read_inv' h20
      obtain ⟨t22, b22⟩ := PES.read_inv' h22
      obtain ⟨t23, b23⟩ := PES.read_inv' h23
      refine ⟨some ⟨v19, v20, v21, v22, v23⟩, ?_, ?_, rfl, rfl, rfl, rfl, rfl, rfl⟩
      · intro c hc
        cases hc
        exact ⟨b20, b22, b23⟩
      · have := t18.trans ((BR.read1_inv h19).trans (t20.trans ((BR.read1_inv h21).trans (t22.trans t23))))
        simpa only [encComposite, List.append_assoc, List.cons_append, List.nil_append] using this
  obtain ⟨k, wk, tk, rfl, rfl, rfl, rfl, rfl, rfl⟩ := hc
  refine ⟨⟨v3, v4, v5, v6, v7, v8, v9, v10, v11, v12, v13, v14, v15, v16, v17, k⟩,
    ⟨b3, b4, b5, b6, b7, b8, b10, b12, b13, b14, wk⟩, rfl, ?_⟩
  have := (startCode_inv h1).trans ((extensionID_inv h2).trans (t3.trans (t4.trans (t5.trans (t6.trans (t7.trans (t8.trans
    (t9.trans (t10.trans (t11.trans (t12.trans (t13.trans (t14.trans (t15.trans (t16.trans (t17.trans tk))))))))))))))))
  simpa only [encPicExt, List.append_assoc] using this

/-! ### the other extensions -/

theorem readTemp_inv {x : PictureTemporalScalableExtension} {s s' : BR}
    (h : readPictureTemporalScalableExtension s = (.ok x, s')) :
    ∃ (e : TempExt) (t : Tail), e.WF ∧ t.OK (s.pos + (encTemp e).length) ∧
      s.bits = encTemp e ++ t.bits ∧ s' = t.after (s.pos + (encTemp e).length) s.stop s.later := by
  unfold readPictureTemporalScalableExtension at h
  obtain ⟨_, s1, h1, h⟩ := Go.bind_eq_ok h
  obtain ⟨v2, s2, h2, h⟩ := Go.bind_eq_ok h
  obtain ⟨v3, s3, h3, h⟩ := Go.bind_eq_ok h
  obtain ⟨_, s4, h4, h⟩ := Go.bind_eq_ok h
  obtain ⟨v5, s5, h5, h⟩ := Go.bind_eq_ok h
  obtain ⟨_, s6, h6, h⟩ := Go.bind_eq_ok h
  simp only [Go.pure_apply, Prod.mk.injEq, Res.ok.injEq] at h
  obtain ⟨rfl, rfl⟩ := h
  obtain ⟨t2, b2⟩ := PES.read_inv' h2
  obtain ⟨t3, b3⟩ := PES.read_inv' h3
  obtain ⟨t5, b5⟩ := PES.read_inv' h5
  have t : Took s (encTemp ⟨v2, v3, v5⟩) s5 := by
    have := (extensionID_inv h1).trans (t2.trans (t3.trans ((markerBit_inv h4).trans t5)))
    simpa only [encTemp, List.append_assoc] using this
  obtain ⟨tl, k1, k2, k3⟩ := tail_inv t h6
  exact ⟨_, tl, ⟨b2, b3, b5⟩, k1, k2, k3⟩

/-- With nothing behind the end of the data, a dropped error is followed by another one. -/
theorem readDisp_inv {x : SequenceDisplayExtension} {s s' : BR} (hp : s.later = [])
    (h : readSequenceDisplayExtension s = (.ok x, s')) :
    ∃ (e : SeqDisp) (t : Tail), e.WF ∧ t.OK (s.pos + (encSeqDisp e).length) ∧
      s.bits = encSeqDisp e ++ t.bits ∧ s' = t.after (s.pos + (encSeqDisp e).length) s.stop s.later := by
  unfold readSequenceDisplayExtension at h
  obtain ⟨_, s1, h1, h⟩ := Go.bind_eq_ok h
  obtain ⟨v2, s2, h2, h⟩ := Go.bind_eq_ok h
  obtain ⟨c, s3, h3, h⟩ := Go.bind_eq_ok h
  obtain ⟨v4, s4, h4, h⟩ := Go.bind_eq_ok h
  obtain ⟨v5, s5, h5, h⟩ := Go.bind_eq_ok h
  obtain ⟨v6, s6, h6, h⟩ := Go.bind_eq_ok h
  obtain ⟨v7, s7, h7, h⟩ := Go.bind_eq_ok h
  obtain ⟨_, s8, h8, h⟩ := Go.bind_eq_ok h
  obtain ⟨v9, s9, h9, h⟩ := Go.bind_eq_ok h
  obtain ⟨_, s10, h10, h⟩ := Go.bind_eq_ok h
  simp only [Go.pure_apply, Prod.mk.injEq, Res.ok.injEq] at h
  obtain ⟨rfl, rfl⟩ := h
  have t1 := extensionID_inv h1
  obtain ⟨t2, b2⟩ := PES.read_inv' h2
  obtain ⟨t7, b7⟩ := PES.read_inv' h7
  obtain ⟨t9, b9⟩ := PES.read_inv' h9
  have hl2 : s2.later = [] := (t2.later.trans t1.later).trans hp
  have t3 : Took s2 [c] s3 := by
    unfold read1OrFalse at h3
    cases hb : s2.bits with
    | cons b r =>
      have : BR.read1 s2 = (.ok b, s2.adv 1) := by simp [BR.read1, hb]
      rw [this] at h3
      cases h3
      exact BR.read1_inv this
    | nil =>
      exfalso
      rw [BR.read1_short (by simp [hb])] at h3
      simp only [Prod.mk.injEq, Res.ok.injEq] at h3
      obtain ⟨rfl, rfl⟩ := h3
      simp only [Go.opt_false, Go.pure_apply, Prod.mk.injEq, Res.ok.injEq] at h4 h5 h6
      obtain ⟨rfl, rfl⟩ := h4
      obtain ⟨rfl, rfl⟩ := h5
      obtain ⟨rfl, rfl⟩ := h6
      have e := congrArg List.length t7.bits
      have : s2.failTo.bits = [] := by unfold BR.failTo; rw [hl2]
      rw [this, List.length_append, length_bitsOf, List.length_nil] at e
      omega
  have hc : ∃ k : Option (Nat × Nat × Nat), (∀ c ∈ k, c.1 < 256 ∧ c.2.1 < 256 ∧ c.2.2 < 256) ∧
      Took s2 (match k with
        | none => [false]
        | some (a, b, c) => true :: (bitsOf 8 a ++ bitsOf 8 b ++ bitsOf 8 c)) s6 := by
    cases c with
    | false =>
      simp only [Go.opt_false, Go.pure_apply, Prod.mk.injEq, Res.ok.injEq] at h4 h5 h6
      obtain ⟨rfl, rfl⟩ := h4
      obtain ⟨rfl, rfl⟩ := h5
      obtain ⟨rfl, rfl⟩ := h6
      exact ⟨none, by simp, t3⟩
    | true =>
      simp only [Go.opt_true] at h4 h5 h6
      obtain ⟨t4, b4⟩ := PES.read_inv' h4
      obtain ⟨t5, b5⟩ := PES.read_inv' h5
      obtain ⟨t6, b6⟩ := PES.read_inv' h6
      refine ⟨some (v4, v5, v6), ?_, ?_⟩
      · intro c hc
        cases hc
        exact ⟨b4, b5, b6⟩
      · simpa only [List.append_assoc, List.cons_append, List.nil_append] using t3.trans (t4.trans (t5.trans t6))
  obtain ⟨k, wk, tk⟩ := hc
  have t : Took s (encSeqDisp ⟨v2, k, v7, v9⟩) s9 := by
    have := t1.trans (t2.trans (tk.trans (t7.trans ((markerBit_inv h8).trans t9))))
    cases k with
    | none => simpa only [encSeqDisp, List.append_assoc] using this
    | some c =>
      obtain ⟨c1, c2, c3⟩ := c
      simpa only [encSeqDisp, List.append_assoc] using this
  obtain ⟨tl, k1, k2, k3⟩ := tail_inv t h10
  exact ⟨_, tl, ⟨b2, wk, b7, b9⟩, k1, k2, k3⟩

theorem lift_inv {α : Type} {m : Go BR α} {a : α} {s s' : VS} (h : VS.lift m s = (.ok a, s')) :
    m s.br = (.ok a, s'.br) ∧ s' = { s with br := s'.br } := by
  unfold VS.lift at h
  simp only [Prod.mk.injEq] at h
  obtain ⟨h1, rfl⟩ := h
  exact ⟨Prod.ext h1 rfl, rfl⟩

theorem loadMatrix_inv {set : QMatrices → Matrix → QMatrices} {u : Unit} {s s' : VS} (h : loadMatrix set s = (.ok u, s')) :
    ∃ x : Option Mat, optWF x ∧ Took s.br (encLoad x) s'.br ∧
      s' = { s with br := s'.br, qm := (x.map (set s.qm)).getD s.qm } := by
  unfold loadMatrix at h
  obtain ⟨f, s1, h1, h⟩ := Go.bind_eq_ok h
  obtain ⟨k1, e1⟩ := lift_inv h1
  have t1 := BR.read1_inv k1
  cases f with
  | false =>
    simp only [Go.opt_false, Go.pure_apply, Prod.mk.injEq, Res.ok.injEq, true_and] at h
    subst h
    exact ⟨none, by simp [optWF], t1, e1⟩
  | true =>
    simp only [Go.opt_true] at h
    obtain ⟨m, s2, h2, h⟩ := Go.bind_eq_ok h
    obtain ⟨k2, e2⟩ := lift_inv h2
    obtain ⟨t2, l2, b2⟩ := readBytes_inv 64 k2
    simp only [Go.modify, Prod.mk.injEq, true_and] at h
    subst h
    refine ⟨some m, ?_, t1.trans t2, ?_⟩
    · intro x hx
      cases hx
      exact ⟨l2, b2⟩
    · rw [e2, e1]
      rfl

theorem codeAssert_of_take {k c : Nat} {e : Err} {s : BR} {r : List Bool} (hc : c < 2 ^ k) (hb : s.bits = bitsOf k c ++ r) :
    ∃ s', codeAssert k c e s = (.ok (), s') ∧ Took s (bitsOf k c) s' := by
  have e1 : s = ⟨bitsOf k c ++ r, s.pos, s.stop, s.later⟩ := by cases s; simp only at hb; rw [hb]
  have h : codeAssert k c e s = (.ok (), ⟨r, s.pos + k, s.stop, s.later⟩) := by
    unfold codeAssert codeCheck
    have hp : BR.peek k s = (.ok c, s) := by rw [e1, BR.peek_bitsOf, Nat.mod_eq_of_lt hc]
    have h1 : (do let v ← BR.peek k; pure (v == c) : Go BR Bool) s = (.ok true, s) := by
      rw [Go.bind_ok hp, Go.pure_apply, beq_self_eq_true]
    refine (Go.bind_ok h1).trans ?_
    simp only [Go.check_true]
    refine (Go.bind_ok (Go.pure_apply ..)).trans ?_
    rw [e1]
    exact BR.skip_bitsOf k c
  exact ⟨_, h, PS.codeAssert_inv h⟩

theorem quant_inv {u : Unit} {s s' : VS} {r : List Bool} (hb : s.br.bits = bitsOf 4 3 ++ r)
    (h : quantMatrixExtension s = (.ok u, s')) :
    ∃ (e : QExt) (t : Tail), e.WF ∧ t.OK (s.br.pos + (encQExt e).length) ∧
      s.br.bits = encQExt e ++ t.bits ∧ s'.br = t.after (s.br.pos + (encQExt e).length) s.br.stop s.br.later := by
  unfold quantMatrixExtension at h
  obtain ⟨_, s1, h1, q1⟩ := Go.bind_eq_ok h
  obtain ⟨_, s2, h2, q2⟩ := Go.bind_eq_ok q1
  obtain ⟨_, s3, h3, q3⟩ := Go.bind_eq_ok q2
  obtain ⟨_, s4, h4, q4⟩ := Go.bind_eq_ok q3
  obtain ⟨_, s5, h5, h6⟩ := Go.bind_eq_ok q4
  clear h q1 q2 q3 q4
  obtain ⟨b1, e1, t1⟩ := codeAssert_of_take (e := .unexpectedExtensionID) (c := 3) (by decide) hb
  have e2 : Go.ignoreErr (VS.lift (extensionID quantMatrixExtensionID)) s = (.ok (), { s with br := b1 }) := by
    unfold Go.ignoreErr
    rw [lift_ok (by exact e1)]
  rw [e2] at h1
  cases h1
  obtain ⟨x2, w2, t2, -⟩ := loadMatrix_inv h2
  obtain ⟨x3, w3, t3, -⟩ := loadMatrix_inv h3
  obtain ⟨x4, w4, t4, -⟩ := loadMatrix_inv h4
  obtain ⟨x5, w5, t5, -⟩ := loadMatrix_inv h5
  obtain ⟨k6, -⟩ := lift_inv h6
  have t : Took s.br (encQExt ⟨x2, x3, x4, x5⟩) s5.br := by
    have := t1.trans (t2.trans (t3.trans (t4.trans t5)))
    simpa only [encQExt, List.append_assoc] using this
  obtain ⟨tl, k1, k2, k3⟩ := tail_inv t k6
  exact ⟨_, tl, ⟨w2, w3, w4, w5⟩, k1, k2, k3⟩

/-! ### user data -/

theorem userLoop_read : ∀ (fuel : Nat) {d : List Nat} {s s' : BR}, userDataLoop fuel s = (.ok d, s') →
    Took s (d.flatMap (bitsOf 8)) s' ∧ UserOK d ∧ ∃ r, s'.bits = prefix1 ++ r
  | 0, d, s, s', h => by simp [userDataLoop, Go.hang] at h
  | fuel + 1, d, s, s', h => by
    simp only [userDataLoop] at h
    obtain ⟨v, s0, h0, hx⟩ := Go.bind_eq_ok h
    clear h
    obtain ⟨rfl, hl, hv⟩ := BR.peek_inv h0
    have h := hx
    clear hx
    by_cases hc : v = startCodePrefix
    · rw [if_pos hc] at h
      simp only [Go.pure_apply, Prod.mk.injEq, Res.ok.injEq] at h
      obtain ⟨rfl, rfl⟩ := h
      refine ⟨.refl _, ⟨by simp, by simp⟩, s0.bits.drop 24, ?_⟩
      have : s0.bits.take 24 = prefix1 := by
        rw [prefix1_eq, ← show v = 1 from hc, hv]
        exact (bitsOf_natOfBits' (by rw [List.length_take]; omega)).symm
      rw [← this, List.take_append_drop]
    · rw [if_neg hc] at h
      obtain ⟨b, s1, h1, h⟩ := Go.bind_eq_ok h
      obtain ⟨l, s2, h2, h⟩ := Go.bind_eq_ok h
      simp only [Go.pure_apply, Prod.mk.injEq, Res.ok.injEq] at h
      obtain ⟨rfl, rfl⟩ := h
      obtain ⟨t1, b1⟩ := PES.read_inv' h1
      obtain ⟨t2, ⟨k1, k2⟩, r, hr⟩ := userLoop_read fuel h2
      refine ⟨?_, ⟨?_, ?_⟩, r, hr⟩
      · rw [List.flatMap_cons]; exact t1.trans t2
      · intro x hx
        rcases List.mem_cons.mp hx with rfl | hx
        · exact b1
        · exact k1 x hx
      · intro j hj
        have hll : (l.flatMap (bitsOf 8)).length = 8 * l.length := length_encMat l
        cases j with
        | zero =>
          intro he
          apply hc
          have hb := (t1.trans t2).bits
          rw [hr] at hb
          rw [hv, hb, ← List.append_assoc, List.take_append_of_le_length (by
            simp only [List.length_append, length_bitsOf, prefix1_length]; omega)]
          rw [Nat.mul_zero, List.drop_zero, List.flatMap_cons] at he
          rw [he]
          decide
        | succ j =>
          have := k2 j (by simpa using hj)
          rw [List.flatMap_cons, List.append_assoc, Nat.mul_add, Nat.mul_one, Nat.add_comm, ← List.drop_drop,
            List.drop_left' (length_bitsOf 8 b)]
          exact this

theorem userData_read {d : List Nat} {s s' : BR} (ha : s.pos % 8 = 0) (h : userData s = (.ok d, s')) :
    UserOK d ∧ Took s (encUser d) s' ∧ ∃ r, s'.bits = prefix1 ++ r := by
  unfold userData at h
  obtain ⟨_, s1, h1, h⟩ := Go.bind_eq_ok h
  obtain ⟨l, s2, h2, h⟩ := Go.bind_eq_ok h
  obtain ⟨_, s3, h3, h⟩ := Go.bind_eq_ok h
  simp only [Go.pure_apply, Prod.mk.injEq, Res.ok.injEq] at h
  obtain ⟨rfl, rfl⟩ := h
  have t1 := startCode_inv h1
  unfold userDataBytes at h2
  obtain ⟨t2, ok, r, hr⟩ := userLoop_read _ h2
  have t : Took s (encUser l) s2 := t1.trans t2
  have hp : s2.pos % 8 = 0 := by
    rw [t.pos]
    have hll : (l.flatMap (bitsOf 8)).length = 8 * l.length := length_encMat l
    simp only [encUser, List.length_append, length_bitsOf, hll]
    omega
  have he : nextStartCode s2 = (.ok (), s2) := by
    refine (C34 s2 s2).mpr ⟨0, r, ?_, ?_⟩
    · have h0 : padding s2.pos = 0 := by unfold padding; rw [hp]
      unfold fromBoundary
      rw [h0, List.drop_zero, hr]
      rfl
    · have h0 : padding s2.pos = 0 := by unfold padding; rw [hp]
      rw [h0, ← hr]
      rfl
  rw [he] at h3
  cases h3
  exact ⟨ok, t, r, hr⟩

/-! ### lists of items -/

theorem extStep_inv {i : Nat} (hi : i = 0 ∨ i = 2) {u : Unit} {s s' : VS} {x : List Bool} (hl : s.br.later = [])
    (hb : s.br.bits = bitsOf 32 0x1B5 ++ x) (h : extensionDataStep i s = (.ok u, s')) :
    ∃ it : Item, ∃ (pad t : List Bool) (k : Nat), it.OK i ∧ (∀ d, it ≠ .user d) ∧
      pad.length = padding (s.br.pos + 32 + it.body.length) ∧
      s.br.bits = bitsOf 32 0x1B5 ++ (it.body ++ (pad ++ (zeros (8 * k) ++ (prefix1 ++ t)))) ∧
      s'.br = ⟨prefix1 ++ t, s.br.pos + 32 + it.body.length + pad.length + 8 * k, s.br.stop, s.br.later⟩ := by
  have e0 : Go.ignoreErr (VS.lift (BR.skip 32)) s =
      (.ok (), { s with br := ⟨x, s.br.pos + 32, s.br.stop, s.br.later⟩ }) := by
    have hs : s.br = ⟨bitsOf 32 0x1B5 ++ x, s.br.pos, s.br.stop, s.br.later⟩ := by
      generalize s.br = b at hb ⊢
      cases b
      simp only at hb
      rw [hb]
    unfold Go.ignoreErr
    rw [lift_ok (show BR.skip 32 s.br = (.ok (), ⟨x, s.br.pos + 32, s.br.stop, s.br.later⟩) by rw [hs]; exact BR.skip_bitsOf 32 _)]
  unfold extensionDataStep at h
  rw [Go.bind_ok e0] at h
  generalize hb' : (⟨x, s.br.pos + 32, s.br.stop, s.br.later⟩ : BR) = b at h
  have hx : b.bits = x := by rw [← hb']
  have hp : b.pos = s.br.pos + 32 := by rw [← hb']
  have hst : b.stop = s.br.stop := by rw [← hb']
  have hla : b.later = s.br.later := by rw [← hb']
  have fin : ∀ (it : Item) (t : Tail), it.OK i → (∀ d, it ≠ .user d) → t.OK (b.pos + it.body.length) →
      b.bits = it.body ++ t.bits → s'.br = t.after (b.pos + it.body.length) b.stop b.later →
      ∃ it : Item, ∃ (pad t : List Bool) (k : Nat), it.OK i ∧ (∀ d, it ≠ .user d) ∧
      pad.length = padding (s.br.pos + 32 + it.body.length) ∧
      s.br.bits = bitsOf 32 0x1B5 ++ (it.body ++ (pad ++ (zeros (8 * k) ++ (prefix1 ++ t)))) ∧
      s'.br = ⟨prefix1 ++ t, s.br.pos + 32 + it.body.length + pad.length + 8 * k, s.br.stop, s.br.later⟩ := by
    intro it t h1 h2 h3 h4 h5
    rw [hp] at h3 h5
    rw [hst, hla] at h5
    exact ⟨it, t.pad, t.rest, t.stuffing, h1, h2, h3, by rw [hb, ← hx, h4]; rfl, h5⟩
  rcases hi with rfl | rfl
  · rw [if_pos rfl] at h
    obtain ⟨id, s1, h1, h⟩ := Go.bind_eq_ok h
    obtain ⟨k1, e1⟩ := lift_inv h1
    obtain ⟨k2, k3, k4⟩ := BR.peek_inv k1
    by_cases hid : id = sequenceDisplayExtensionID
    · rw [if_pos hid] at h
      obtain ⟨y, s2, h2, h⟩ := Go.bind_eq_ok h
      simp only [Go.pure_apply, Prod.mk.injEq, true_and] at h
      subst h
      obtain ⟨k5, -⟩ := lift_inv h2
      rw [k2] at k5
      obtain ⟨e, t, w, o1, o2, o3⟩ := readDisp_inv (by dsimp only; rw [hla, hl]) k5
      exact fin (.display e) t ⟨rfl, w⟩ (by intro d; simp) o1 o2 o3
    · rw [if_neg hid] at h
      exfalso
      obtain ⟨k5, -⟩ := lift_inv h
      unfold readSequenceScalableExtension at k5
      obtain ⟨_, s2, h2, h⟩ := Go.bind_eq_ok k5
      obtain ⟨_, s3, h3, h⟩ := Go.bind_eq_ok h
      obtain ⟨_, s4, h4, h⟩ := Go.bind_eq_ok h
      simp [Go.panic] at h
  · rw [if_neg (by decide), if_pos rfl] at h
    obtain ⟨id, s1, h1, h⟩ := Go.bind_eq_ok h
    obtain ⟨k1, e1⟩ := lift_inv h1
    obtain ⟨k2, k3, k4⟩ := BR.peek_inv k1
    by_cases hid : id = quantMatrixExtensionID
    · rw [if_pos hid] at h
      have hq : s1.br.bits = bitsOf 4 3 ++ b.bits.drop 4 := by
        rw [k2]
        have : b.bits.take 4 = bitsOf 4 3 := by
          rw [← show id = 3 from hid, k4]
          exact (bitsOf_natOfBits' (by rw [List.length_take]; exact Nat.min_eq_left k3)).symm
        rw [← this, List.take_append_drop]
      obtain ⟨e, t, w, o1, o2, o3⟩ := quant_inv hq h
      rw [k2] at o1 o2 o3
      exact fin (.quant e) t ⟨rfl, w⟩ (by intro d; simp) o1 o2 o3
    · rw [if_neg hid] at h
      by_cases hid2 : id = copyrightExtensionID ∨ id = pictureDisplayExtensionID ∨ id = pictureSpatialScalableExtensionID
      · rw [if_pos hid2] at h
        simp [Go.panic] at h
      · rw [if_neg hid2] at h
        obtain ⟨y, s2, h2, h⟩ := Go.bind_eq_ok h
        simp only [Go.pure_apply, Prod.mk.injEq, true_and] at h
        subst h
        obtain ⟨k5, -⟩ := lift_inv h2
        rw [k2] at k5
        obtain ⟨e, t, w, o1, o2, o3⟩ := readTemp_inv k5
        exact fin (.temporal e) t ⟨rfl, w⟩ (by intro d; simp) o1 o2 o3

theorem _root_.Mpeg.Video.Spec.ItemsCode.append {i : Nat} {a b : List Item} {x y : List Bool} {pos : Nat} (h : ItemsCode i pos a x)
    (h' : ItemsCode i (pos + x.length) b y) : ItemsCode i pos (a ++ b) (x ++ y) := by
  induction h with
  | nil => exact h'
  | @user p d its more ok hm ih =>
    rw [List.append_assoc]
    refine .user ok (ih ?_)
    rw [List.length_append, ← Nat.add_assoc] at h'
    exact h'
  | @ext p it its pad more k ok hu hp hm ih =>
    simp only [List.append_assoc, List.cons_append]
    refine .ext k ok hu hp (ih ?_)
    simp only [List.length_append, length_bitsOf, zeros, List.length_replicate] at h'
    rw [show p + 32 + it.body.length + pad.length + 8 * k + more.length =
      p + (32 + (it.body.length + (pad.length + (8 * k + more.length)))) by omega]
    exact h'

/-- The matrices in use, as matrices of the specification. -/
def matsOf (q : QMatrices) : Mats := ⟨q.m0, q.m1, q.m2, q.m3⟩

/-- What a loop over items has read. -/
structure Read (i : Nat) (s s' : VS) (its : List Item) (bits : List Bool) : Prop where
  code : ItemsCode i s.br.pos its bits
  took : Took s.br bits s'.br
  aligned : s'.br.pos % 8 = 0
  stopped : its = [] ∨ ∃ t, s'.br.bits = prefix1 ++ t
  state : s' = { s with br := s'.br, qm := (its.foldl Item.load (matsOf s.qm)).qm }

theorem Read.trans {i : Nat} {s s1 s' : VS} {a b : List Item} {x y : List Bool} (h : Read i s s1 a x) (h' : Read i s1 s' b y) :
    Read i s s' (a ++ b) (x ++ y) := by
  refine ⟨h.code.append (h.took.pos ▸ h'.code), h.took.trans h'.took, h'.aligned, ?_, ?_⟩
  case refine_2 =>
    have e1 := h.state
    have e2 := h'.state
    rw [e2, List.foldl_append]
    generalize s'.br = b
    rw [e1]
    rfl
  rcases h'.stopped with e | e
  · subst e
    have := h'.code
    cases this
    have e2 := h'.took.bits
    rw [List.nil_append] at e2
    rw [List.append_nil, ← e2]
    exact h.stopped
  · exact .inr e

theorem vpeek_bits {k v : Nat} {s s' : VS} (h : VS.lift (BR.peek k) s = (.ok v, s')) :
    s' = s ∧ v < 2 ^ k ∧ s.br.bits = bitsOf k v ++ s.br.bits.drop k := by
  obtain ⟨h1, h2⟩ := lift_inv h
  obtain ⟨k1, k2, k3⟩ := BR.peek_inv h1
  refine ⟨by rw [h2, k1], ?_, ?_⟩
  · rw [k3]
    refine Nat.lt_of_lt_of_le (natOfBits_lt _) (Nat.pow_le_pow_right (by decide) ?_)
    rw [List.length_take]; omega
  rw [k3, bitsOf_natOfBits' (by rw [List.length_take]; omega), List.take_append_drop]

theorem ext_read {i : Nat} (hi : i = 0 ∨ i = 2) : ∀ (f : Nat) {u : Unit} {s s' : VS}, s.br.later = [] → s.br.pos % 8 = 0 →
    extensionData i f s = (.ok u, s') → ∃ its bits, Read i s s' its bits
  | 0, u, s, s', hl, ha, h => by simp [extensionData, Go.hang] at h
  | f + 1, u, s, s', hl, ha, h => by
    simp only [extensionData] at h
    obtain ⟨v, s0, h0, hx⟩ := Go.bind_eq_ok h
    clear h
    obtain ⟨rfl, hv', hb⟩ := vpeek_bits h0
    have h := hx
    clear hx
    by_cases hv : v = extensionStartCode
    · rw [if_pos hv] at h
      obtain ⟨_, s1, h1, h⟩ := Go.bind_eq_ok h
      rw [show v = 0x1B5 from hv] at hb
      obtain ⟨it, pad, t, k, ok, hu, hp, e1, e2⟩ := extStep_inv hi hl hb h1
      have hal : s1.br.pos % 8 = 0 := by
        rw [e2]
        dsimp only
        rw [hp]
        unfold padding
        omega
      have r1 : Read i s0 s1 [it] (bitsOf 32 0x1B5 ++ (it.body ++ (pad ++ (zeros (8 * k) ++ [])))) := by
        refine ⟨.ext k ok hu hp .nil, ⟨?_, ?_, by rw [e2], by rw [e2]⟩, hal, .inr ⟨t, by rw [e2]⟩, ?_⟩
        · rw [e1, e2]
          simp only [List.append_assoc, List.append_nil]
        · rw [e2]
          simp only [List.length_append, length_bitsOf, zeros, List.length_replicate, List.length_nil]
          omega
        · have hs : s0.br = ⟨bitsOf 32 0x1B5 ++ (it.body ++ (pad ++ (zeros (8 * k) ++ (prefix1 ++ t)))), s0.br.pos, s0.br.stop,
              s0.br.later⟩ := by
            generalize s0.br = b at e1
            cases b
            simp only at e1
            rw [e1]
          have := extStep_run ok hu s0 k (q := matsOf s0.qm) rfl hp hs
          rw [h1] at this
          simp only [Prod.mk.injEq, true_and] at this
          rw [this]
          rfl
      obtain ⟨its, bits, r2⟩ := ext_read hi f (by rw [e2]; exact hl) hal h
      exact ⟨_, _, r1.trans r2⟩
    · rw [if_neg hv] at h
      simp only [Go.pure_apply, Prod.mk.injEq, true_and] at h
      subst h
      exact ⟨[], [], .nil, .refl _, ha, .inl rfl, rfl⟩

theorem items_read {i : Nat} (hi : i ≤ 2) : ∀ (f : Nat) {u : Unit} {s s' : VS}, s.br.later = [] → s.br.pos % 8 = 0 →
    extensionAndUserData i f s = (.ok u, s') → ∃ its bits, Read i s s' its bits ∧
      ∃ c, c < 2 ^ 32 ∧ c ≠ 0x1B5 ∧ c ≠ 0x1B2 ∧ s'.br.bits = bitsOf 32 c ++ s'.br.bits.drop 32
  | 0, u, s, s', hl, ha, h => by simp [extensionAndUserData, Go.hang] at h
  | f + 1, u, s, s', hl, ha, h => by
    simp only [extensionAndUserData] at h
    obtain ⟨v, s0, h0, hx⟩ := Go.bind_eq_ok h
    clear h
    obtain ⟨rfl, hv', hb⟩ := vpeek_bits h0
    have h := hx
    clear hx
    by_cases hv : v = extensionStartCode
    · rw [if_pos hv] at h
      by_cases h1 : i = 1
      · rw [if_neg (by simp [h1])] at h
        exact items_read hi f hl ha h
      · rw [if_pos h1] at h
        obtain ⟨_, s1, h2, h⟩ := Go.bind_eq_ok h
        obtain ⟨its, bits, r1⟩ := ext_read (i := i) (by omega) f hl ha h2
        obtain ⟨its2, bits2, r2, hc⟩ := items_read hi f (r1.took.later.trans hl) r1.aligned h
        exact ⟨_, _, r1.trans r2, hc⟩
    · rw [if_neg hv] at h
      by_cases hu : v = userDataStartCode
      · rw [if_pos hu] at h
        obtain ⟨d, s1, h2, h⟩ := Go.bind_eq_ok h
        obtain ⟨k2, e2⟩ := lift_inv h2
        obtain ⟨ok, t, r, hr⟩ := userData_read ha k2
        have hal : s1.br.pos % 8 = 0 := by
          rw [t.pos]
          have hll : (d.flatMap (bitsOf 8)).length = 8 * d.length := length_encMat d
          simp only [encUser, List.length_append, length_bitsOf, hll]
          omega
        have r1 : Read i s0 s1 [.user d] (encUser d ++ []) :=
          ⟨.user ok .nil, by rw [List.append_nil]; exact t, hal, .inr ⟨r, hr⟩, e2⟩
        obtain ⟨its2, bits2, r2, hc⟩ := items_read hi f (r1.took.later.trans hl) r1.aligned h
        exact ⟨_, _, r1.trans r2, hc⟩
      · rw [if_neg hu] at h
        simp only [Go.pure_apply, Prod.mk.injEq, true_and] at h
        subst h
        exact ⟨[], [], ⟨.nil, .refl _, ha, .inl rfl, rfl⟩, v, hv', hv, hu, hb⟩

end Mpeg.Video
