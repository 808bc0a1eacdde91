/-
Decoding from an entry point, whatever the state of the decoder.
-/
import Verif.Video.RecoverSpec
import Verif.Video.StreamLemmas4
set_option linter.all false
namespace Mpeg.Video
open Spec

variable {stop : Err} {later : List (List Bool × Err)}

/-! ### the stream from an entry point on does not depend on what precedes it -/

theorem ctx_of_seq {c : Coded} (h : c.seq ≠ none) (σ σ' : Option Ctx) : c.ctx σ = c.ctx σ' := by
  unfold Coded.ctx
  cases hq : c.seq with
  | none => exact absurd hq h
  | some q => rfl

theorem refs_self (e : PicEnv) : e.refs e.past e.future = e := rfl

theorem parts_append {pos : Nat} {Ps Qs : List Part} {a b : List Bool} (h : Parts pos Ps a)
    (h' : Parts (pos + a.length) Qs b) : Parts pos (Ps ++ Qs) (a ++ b) := by
  induction h with
  | nil => simpa using h'
  | @cons pos P Ps b1 bs h1 h2 ih =>
    rw [List.append_assoc]
    refine .cons h1 (ih ?_)
    rw [List.length_append, ← Nat.add_assoc] at h'
    exact h'

theorem parts_same {F : Prop} {c : Coded} {W H pos : Nat} {y : Ctx} {r r' : RefPics} {b : List Bool}
    (hs : SameIf F (y.env c) r r') (h2F : (y.env c).ph.pictureCodingType = 2 → F)
    (hmF : ∀ sl ∈ c.slices, ∀ m ∈ sl.mbs, m.type.forward = true → F) (h : Parts pos (c.parts y r W H) b) :
    Parts pos (c.parts y r' W H) b ∧ c.image y r' = c.image y r := by
  have h' : Parts pos ((seqParts c ++ gopParts c ++ [Stuffed (encPic c.hdr), Stuffed (encPicExt c.ext), ItemsPart 2 c.items]) ++
      [fun pos b => SlicesCode (y.env c) r W H pos blank c.slices b]) b := by
    have : Parts pos (seqParts c ++ gopParts c ++ picParts c y r W H) b := h
    unfold picParts at this
    simpa only [List.append_assoc, List.cons_append, List.nil_append] using this
  obtain ⟨b1, b2, rfl, p1, p2⟩ := parts_split h'
  obtain ⟨c1, c2, rfl, q1, q2⟩ := parts_inv p2
  have := parts_nil q2
  subst this
  obtain ⟨k1, k2⟩ := slices_same (p := none) (f := none) hs h2F hmF q1
  refine ⟨?_, k2⟩
  have h2 := parts_append p1 (.cons k1 .nil : Parts (pos + b1.length) [fun pos b => SlicesCode (y.env c) r' W H pos blank c.slices b] _)
  have : Parts pos (seqParts c ++ gopParts c ++ picParts c y r' W H) (b1 ++ (c1 ++ [])) := by
    unfold picParts
    simpa only [List.append_assoc, List.cons_append, List.nil_append] using h2
  exact this

/-- An I picture does not depend on reference pictures. -/
theorem intra_parts {c : Coded} {W H pos : Nat} (hok : c.OK W H) (hk : c.hdr.kind.code = 1) {y : Ctx} {r r' : RefPics}
    {b : List Bool} (h : Parts pos (c.parts y r W H) b) :
    Parts pos (c.parts y r' W H) b ∧ c.image y r' = c.image y r := by
  obtain ⟨k1, _⟩ := viewPic_kind hok.hdr
  have h1 : (y.env c).ph.pictureCodingType = 1 := k1.trans hk
  exact parts_same (F := True) ⟨fun h => absurd h1 h, fun h => by rw [h1] at h; cases h⟩ (fun _ => trivial)
    (fun _ _ _ _ _ => trivial) h

/-- A picture without forward prediction does not depend on the past reference picture. -/
theorem backward_parts {c : Coded} {W H pos : Nat} (hok : c.OK W H) (hb : ¬ c.Forward) {y : Ctx} {r r' : RefPics}
    (hf : r'.future = r.future) {b : List Bool} (h : Parts pos (c.parts y r W H) b) :
    Parts pos (c.parts y r' W H) b ∧ c.image y r' = c.image y r := by
  obtain ⟨k1, _⟩ := viewPic_kind hok.hdr
  exact parts_same (F := False) ⟨fun _ h => h.elim, fun _ => hf⟩ (fun h => hb (.inl (k1.symm.trans h)))
    (fun sl hs m hm h => hb (.inr ⟨sl, hs, m, hm, h⟩)) h

theorem bs_backward {W H : Nat} {prev prev' : Option Image} {ref : Image} : ∀ {cs : List Coded} {tr : Nat} {x z : Ctx}
    {pos : Nat} {bb : List Bool} {imgs : List Image}, (∀ c ∈ cs, ¬ c.Forward) → BsCode W H prev ref tr x pos cs bb imgs z →
    BsCode W H prev' ref tr x pos cs bb imgs z
  | [], _, _, _, _, _, _, _, h => by cases h; exact .nil
  | c :: cs, _, _, _, _, _, _, hb, h => by
    cases h with
    | cons hok hseq hgop hk htr hctx hparts hbs =>
      obtain ⟨p1, p2⟩ := backward_parts hok (hb c List.mem_cons_self) (r := ⟨prev, some ref⟩) (r' := ⟨prev', some ref⟩) rfl hparts
      rw [← p2]
      exact .cons hok hseq hgop hk htr hctx p1 (bs_backward (fun c hc => hb c (List.mem_cons_of_mem _ hc)) hbs)

theorem groups_entry {W H base base' pos : Nat} {σ σ' : Option Ctx} {prev prev' : Option Image} {gs : List CGroup}
    {bits : List Bool} {imgs : List Image} (he : Entry gs) (h : GroupsCode W H base σ prev pos gs bits imgs) :
    GroupsCode W H base' σ' prev' pos gs bits imgs := by
  obtain ⟨g, more, rfl, h1, h2, h3, h4⟩ := he
  have hg : g.ref.gop.isSome = true := Option.isSome_iff_ne_none.2 h2
  cases h with
  | @cons _ base0 _ _ _ _ _ b bb mb imgs rest y z hok hkind hbase0 htr hctx hparts hbs hgs =>
    obtain ⟨p1, p2⟩ := intra_parts hok h3 (r' := ⟨prev', none⟩) hparts
    rw [← p2]
    exact GroupsCode.cons hok hkind (by rw [hbase0, hg]; rfl) htr (by rw [ctx_of_seq h1 σ' σ]; exact hctx) p1
      (by rw [p2]; exact bs_backward h4 hbs) (by rw [p2]; exact hgs)

/-- The pictures after the first few. -/
theorem groups_drop {W H : Nat} {base : Nat} {σ : Option Ctx} {prev : Option Image} {pos : Nat} {a b : List CGroup}
    {bits : List Bool} {imgs : List Image} (h : GroupsCode W H base σ prev pos (a ++ b) bits imgs) :
    ∃ bits1 bits2 imgs1 imgs2 base' σ' prev', bits = bits1 ++ bits2 ∧ imgs = imgs1 ++ imgs2 ∧
      GroupsCode W H base σ prev pos a bits1 imgs1 ∧
      GroupsCode W H base' σ' prev' (pos + bits1.length) b bits2 imgs2 := by
  induction a generalizing base σ prev pos bits imgs with
  | nil => exact ⟨[], bits, [], imgs, base, σ, prev, rfl, rfl, .nil, h⟩
  | cons g a ih =>
    cases h with
    | @cons _ base0 _ _ _ _ _ c cc mb imgs rest y z hok hkind hbase0 htr hctx hparts hbs hgs =>
      obtain ⟨b1, b2, i1, i2, base', σ', prev', rfl, rfl, h1, h2⟩ := ih hgs
      refine ⟨c ++ (cc ++ b1), b2, imgs ++ (g.ref.image y ⟨prev, none⟩ :: i1), i2, base', σ', prev', ?_, ?_,
        .cons hok hkind hbase0 htr hctx hparts hbs h1, ?_⟩
      · simp only [List.append_assoc]
      · simp only [List.append_assoc, List.cons_append]
      · rw [show pos + (c ++ (cc ++ b1)).length = pos + c.length + cc.length + b1.length by
          simp only [List.length_append]; omega]
        exact h2

/-! ### waiting pictures -/

theorem tryGet_some {fs : FrameStore} {tr : Nat} {f : Frame} (h : fs.tryGet tr = some f) :
    ∃ r, (fs.f0 = some r ∨ fs.f1 = some r) ∧ r.temporalReference = tr ∧ r.frame = f := by
  have hm : ∀ (o : Option RefFrame) f, RefFrame.matches o tr = some f → ∃ r, o = some r ∧ r.temporalReference = tr ∧ r.frame = f := by
    intro o f h
    unfold RefFrame.matches at h
    cases o with
    | none => cases h
    | some r =>
      dsimp only at h
      split at h
      · rename_i hr
        cases h
        exact ⟨r, rfl, hr.2, rfl⟩
      · cases h
  unfold FrameStore.tryGet at h
  cases h0 : RefFrame.matches fs.f0 tr with
  | some g =>
    rw [h0] at h
    obtain ⟨r, a, b, c⟩ := hm _ _ h0
    cases h
    exact ⟨r, .inl a, b, c⟩
  | none =>
    rw [h0] at h
    obtain ⟨r, a, b, c⟩ := hm _ _ h
    exact ⟨r, .inr a, b, c⟩

theorem next_waiting {fuel k : Nat} {s : VS} {f : Frame} (h : s.fs.tryGet s.frameCounter = some f) :
    VS.next fuel k s = (.ok f, s.count) := by
  unfold VS.next
  rw [h]

/-- At most two pictures are waiting. -/
theorem waiting (fuel k : Nat) (s : VS) :
    ∃ w t, w.length ≤ 2 ∧ nexts fuel k w.length s = (.ok w, t) ∧ Eqv s t ∧ t.fs.tryGet t.frameCounter = none ∧
      (s.fs.tryGet s.frameCounter = none → w = []) ∧ ∀ f ∈ w, ∃ r, (s.fs.f0 = some r ∨ s.fs.f1 = some r) ∧ r.frame = f := by
  cases h0 : s.fs.tryGet s.frameCounter with
  | none => exact ⟨[], s, by decide, rfl, Eqv.refl s, h0, fun _ => rfl, fun f hf => (by cases hf)⟩
  | some f0 =>
    have n0 := nexts_one (next_waiting (fuel := fuel) (k := k) h0)
    obtain ⟨r0, a0, b0, c0⟩ := tryGet_some h0
    cases h1 : s.count.fs.tryGet s.count.frameCounter with
    | none =>
      refine ⟨[f0], s.count, by simp, n0, eqv_count s, h1, fun h => (by cases h), fun f hf => ?_⟩
      rw [List.mem_singleton] at hf
      subst hf
      exact ⟨r0, a0, c0⟩
    | some f1 =>
      have n1 := nexts_append n0 (nexts_one (next_waiting (fuel := fuel) (k := k) h1))
      obtain ⟨r1, a1, b1, c1⟩ := tryGet_some h1
      refine ⟨[f0, f1], s.count.count, by simp, n1, (eqv_count s).trans (eqv_count _), ?_, fun h => (by cases h), fun f hf => ?_⟩
      · cases h2 : s.count.count.fs.tryGet s.count.count.frameCounter with
        | none => rfl
        | some f2 =>
          exfalso
          obtain ⟨r2, a2, b2, c2⟩ := tryGet_some h2
          have e1 : s.count.frameCounter = (s.frameCounter + 1) % 2 ^ 32 := rfl
          have e2 : s.count.count.frameCounter = ((s.frameCounter + 1) % 2 ^ 32 + 1) % 2 ^ 32 := rfl
          have a1' : s.fs.f0 = some r1 ∨ s.fs.f1 = some r1 := a1
          have a2' : s.fs.f0 = some r2 ∨ s.fs.f1 = some r2 := a2
          have key : r0.temporalReference = r1.temporalReference ∨ r0.temporalReference = r2.temporalReference ∨
              r1.temporalReference = r2.temporalReference := by
            rcases a0 with a0 | a0 <;> rcases a1' with a1 | a1 <;> rcases a2' with a2 | a2 <;>
              first
              | (left; rw [a0] at a1; cases a1; rfl)
              | (right; left; rw [a0] at a2; cases a2; rfl)
              | (right; right; rw [a1] at a2; cases a2; rfl)
          rw [b0, b1, b2, e1, e2] at key
          omega
      · rcases List.mem_cons.1 hf with rfl | hf
        · exact ⟨r0, a0, c0⟩
        · rw [List.mem_singleton] at hf
          subst hf
          exact ⟨r1, a1, c1⟩

/-! ### the first picture -/

theorem entry_next {W H n fuel k : Nat} {rest : List Bool} (hk2 : 2 ≤ k) (hn : n < 256) (hns : ¬ (1 ≤ n ∧ n ≤ 0xAF))
    {base : Nat} {σ : Option Ctx} {prev : Option Image} {pos : Nat} {gs : List CGroup} {bits : List Bool}
    {imgs : List Image} (hent : Entry gs) (h : GroupsCode W H base σ prev pos gs bits imgs) {s : VS} {lead : Nat}
    (hw : s.fs.tryGet s.frameCounter = none) (hlead : s.sh ≠ none → lead = 0) (ha : pos % 8 = 0) (hlp : 8 * lead ≤ pos)
    (hf : bits.length + 1 ≤ fuel)
    (hb : s.br = ⟨zeros (8 * lead) ++ (bits ++ (prefix1 ++ (bitsOf 8 n ++ rest))), pos - 8 * lead, stop, later⟩) :
    ∃ frames t, nexts fuel k imgs.length s = (.ok frames, t) ∧ AllShow W H frames imgs ∧
      ∃ base' z pf' P, Between W H base' (some z) P pf' t ∧
        t.br = ⟨prefix1 ++ (bitsOf 8 n ++ rest), pos + bits.length, stop, later⟩ ∧ (pos + bits.length) % 8 = 0 := by
  have h := groups_entry (base' := 0) (σ' := none) (prev' := none) hent h
  obtain ⟨g, more, rfl, g1, g2, g3, g4⟩ := hent
  have hg : g.ref.gop.isSome = true := Option.isSome_iff_ne_none.2 g2
  cases h with
  | @cons _ base0 _ _ _ _ _ b bb mb imgs rest' y z hok hkind hbase0 htr hctx hparts hbs hgs =>
    simp only [List.length_append] at hf
    obtain ⟨m1, u1, hm1, hms1, hu1⟩ := groups_noSlice hgs (t := prefix1 ++ (bitsOf 8 n ++ rest)) ⟨n, rest, hn, hns, rfl⟩
    rw [hg, if_pos rfl] at hbase0
    have hd : Ready (s.fs.entered g.ref.gop.isSome) base0 (s.fs.f1.map (·.frame)) := by
      rw [hg, hbase0]
      refine ⟨?_, ?_, ?_⟩
      · show (s.fs.f1.map _).map _ = _
        cases s.fs.f1 <;> rfl
      · intro r hr
        obtain ⟨a, _, rfl⟩ := Option.map_eq_some_iff.1 (show (s.fs.f0.map _) = some r from hr)
        exact .inl rfl
      · intro r hr
        obtain ⟨a, _, rfl⟩ := Option.map_eq_some_iff.1 (show (s.fs.f1.map _) = some r from hr)
        exact .inl rfl
    obtain ⟨fr, f, t, n1, q5, hB', n3, q9⟩ := group_at (U := False) (stop := stop) (later := later) (fuel := fuel) (k := k)
      (rest := u1) hk2 hm1 hms1 hok hkind htr hctx hparts hbs (fun h => absurd h g1) hw hd (by rw [hg, if_pos rfl]; exact hbase0)
      (fun h => h.elim) (fun Q hQ => by cases hQ) (fun h => h.elim) (fun h => h g3) (fun c hc h => g4 c hc h) hlead ha hlp
      (by omega) (by rw [hb, ← hu1]; simp only [List.append_assoc])
    have hbrt : t.br = ⟨mb ++ (prefix1 ++ (bitsOf 8 n ++ rest)), pos + b.length + bb.length, stop, later⟩ := by
      rw [n3, hu1]
    obtain ⟨frames, t', k1, k2, k3⟩ := groups_next (stop := stop) (later := later) (n := n) (rest := rest) hk2 hn hns
      hgs (lead := 0) hB' (fun _ => rfl) q9 (by omega) (fuel := fuel) (by omega) (by rw [hbrt]; rfl)
    refine ⟨fr ++ frames, t', ?_, ?_, ?_⟩
    · have := nexts_append n1 k1
      rw [show (imgs ++ g.ref.image y ⟨none, none⟩ :: rest').length = imgs.length + 1 + rest'.length by
        simp only [List.length_append, List.length_cons]; omega]
      exact this
    · have := q5.append k2
      rw [List.append_assoc] at this
      exact this
    · have hlen : pos + (b ++ (bb ++ mb)).length = pos + b.length + bb.length + mb.length := by
        simp only [List.length_append]; omega
      rw [hlen]
      by_cases hg : more = []
      · subst hg
        cases hgs
        cases k1
        exact ⟨_, _, _, _, hB', by rw [hbrt]; rfl, by simpa using q9⟩
      · obtain ⟨base', z, pf', P, k4, k5, k6⟩ := k3 hg
        exact ⟨base', z, pf', P, k4, k5, k6⟩

/-! ### the end of a sequence -/

theorem end_next {W H base fuel k pos : Nat} {z : Ctx} {P : Option Image} {pf : Option Frame} {t : VS} {rest : List Bool}
    (hk : 1 ≤ k) (hB : Between W H base (some z) P pf t)
    (hbr : t.br = ⟨prefix1 ++ (bitsOf 8 0xB7 ++ rest), pos, stop, later⟩) :
    VS.next fuel k t = (.err .eos, { t with br := ⟨rest, pos + 32, stop, later⟩ }) ∧ t.fs.tryGet t.frameCounter = none := by
  have e7 : bitsOf 32 0x1B7 ++ rest = prefix1 ++ (bitsOf 8 0xB7 ++ rest) := by
    rw [show (0x1B7 : Nat) = 0x100 + 0xB7 from rfl, code32_bits (by decide), List.append_assoc]
  have hge : t.fs.tryGet t.frameCounter = none := by rw [hB.counter]; exact hB.ready.tryGet
  refine ⟨?_, hge⟩
  rw [next_loop hge]
  have hst : step fuel t = (.err .eos, { t with br := ⟨rest, pos + 32, stop, later⟩ }) := by
    have hsome : t.sh.isSome = true := by rw [hB.ctx.sh]; rfl
    unfold step
    rw [if_pos hsome]
    unfold resume
    rw [Go.bind_ok (peek_at (stop := stop) (later := later) (by decide) hbr), if_neg (by decide), if_pos (by decide)]
    have hsk : VS.lift (BR.skip 32) t = (.ok (), { t with br := ⟨rest, pos + 32, stop, later⟩ }) := by
      unfold VS.lift
      rw [hbr, ← e7, BR.skip_bitsOf]
    rw [Go.bind_ok hsk]
    rfl
  obtain ⟨k', rfl⟩ : ∃ k', k = k' + 1 := ⟨k - 1, by omega⟩
  unfold nextLoop
  exact Go.bind_err hst

theorem code_B7 (rest : List Bool) : bitsOf 32 0x1B7 ++ rest = prefix1 ++ (bitsOf 8 0xB7 ++ rest) := by
  rw [show (0x1B7 : Nat) = 0x100 + 0xB7 from rfl, code32_bits (by decide), List.append_assoc]

theorem entry_starts {W H base : Nat} {σ : Option Ctx} {prev : Option Image} {pos : Nat} {gs : List CGroup}
    {bits : List Bool} {imgs : List Image} (hent : Entry gs) (h : GroupsCode W H base σ prev pos gs bits imgs) :
    ∃ u, bits = bitsOf 32 0x1B3 ++ u := by
  obtain ⟨g, more, rfl, g1, g2, g3, g4⟩ := hent
  cases h with
  | @cons _ base0 _ _ _ _ _ b bb mb imgs rest' y z hok hkind hbase0 htr hctx hparts hbs hgs =>
    have h' : Parts pos (seqParts g.ref ++ gopParts g.ref ++ picParts g.ref y ⟨prev, none⟩ W H) b := hparts
    unfold seqParts at h'
    cases hq : g.ref.seq with
    | none => exact absurd hq g1
    | some q =>
      rw [hq] at h'
      obtain ⟨a, as, rfl, q1, _⟩ := parts_inv h'
      obtain ⟨r1, hr1⟩ := starts_seq q.hdr
      obtain ⟨u, hu⟩ := stuffed_starts (by decide) hr1 q1
      rw [hu, show (0x1B3 : Nat) = 0x100 + 0xB3 from rfl, code32_bits (by decide)]
      exact ⟨u ++ as ++ (bb ++ mb), by simp only [List.append_assoc]⟩

end Mpeg.Video
