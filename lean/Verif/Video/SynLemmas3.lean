/-
Slices and pictures: acceptance and the syntax.
-/
import Verif.Video.SynLemmas2
set_option linter.all false
namespace Mpeg.Video
open Spec
open _root_.Mpeg.BR (Took)

/-! ### the macroblocks of a slice -/

theorem head_true {e : PicEnv} {t : MacroblockType} {l : List Bool} (h : HeadWord e t l) (r : List Bool) :
    true ∈ (l ++ r).take 23 := by
  obtain ⟨k, v, t, addr, type, motion, dct, q, f, b, mark, hAddr, -, -, -, -, -, -, -⟩ := h
  have k1 : isoAddress.all (fun x => decide (true ∈ x.1 ∧ x.1.length ≤ 11)) = true := by decide +kernel
  have k2 := of_decide_eq_true (List.all_eq_true.1 k1 _ hAddr)
  have key : ∀ rest : List Bool, ∃ w t, escapes k ++ (addr ++ rest) ++ r = w ++ t ∧ true ∈ w ∧ w.length ≤ 11 := by
    intro rest
    cases k with
    | zero => exact ⟨addr, rest ++ r, by simp [escapes], k2.1, k2.2⟩
    | succ k => exact ⟨addressEscape, escapes k ++ (addr ++ rest) ++ r, by simp [escapes], by decide, by decide⟩
  obtain ⟨w, t, hw, h1, h2⟩ := key (type ++ (motion ++ (dct ++ (q ++ (f ++ (b ++ mark))))))
  rw [hw, List.take_append]
  exact List.mem_append_left _ (by rw [List.take_of_length_le (by omega)]; exact h1)

theorem mbWord_true {e : PicEnv} {l : List Bool} (h : MbWord e l) (r : List Bool) : true ∈ (l ++ r).take 23 := by
  obtain ⟨t, head, pat, blocks, cbp, h, -, -⟩ := h
  rw [List.append_assoc]
  exact head_true h _

theorem Many.mono {M M' : List Bool → Prop} (h : ∀ l, M l → M' l) {l : List Bool} (hl : Many M l) : Many M' l := by
  induction hl with
  | one l hl => exact .one l (h l hl)
  | cons l m hl _ ih => exact .cons l m (h l hl) ih

theorem laxWord_true {e : PicEnv} {l : List Bool} (h : LaxWord e l) (r : List Bool) : true ∈ (l ++ r).take 23 := by
  rcases h with h | ⟨t, head, h, -⟩
  · exact mbWord_true h r
  · rw [List.append_assoc]; exact head_true h _

theorem many_first {e : PicEnv} {l : List Bool} (h : Many (LaxWord e) l) (r : List Bool) : true ∈ (l ++ r).take 23 := by
  cases h with
  | one l h => exact laxWord_true h r
  | cons l m h t => rw [List.append_assoc]; exact laxWord_true h _

theorem mbLoop_fwd {e : PicEnv} (he : Plain e) (row : Nat) {l : List Bool} (hl : Many (LaxWord e) l) :
    ∀ (fuel : Nat) (addr : Option Nat) (s : MB) (r : List Bool), s.br.bits = l ++ r → r.take 23 = zeros 23 → 24 ≤ r.length →
    (mbLoop e row fuel addr s).1 = .panic ∨ (mbLoop e row fuel addr s).1 = .hang ∨
      ∃ s', mbLoop e row fuel addr s = (.ok (), s') ∧ Took s.br l s'.br := by
  have step : ∀ (l : List Bool), LaxWord e l → ∀ (fuel : Nat) (addr : Option Nat) (s : MB) (x : List Bool), s.br.bits = l ++ x →
      24 ≤ x.length → (mbLoop e row (fuel + 1) addr s).1 = .panic ∨ ∃ (a : Nat) (s' : MB), Took s.br l s'.br ∧ s'.br.bits = x ∧
        mbLoop e row (fuel + 1) addr s = (if natOfBits (x.take 23) = 0 then pure () else mbLoop e row fuel (some a) : Go MB Unit) s' := by
    intro l hl fuel addr s x hb hx
    have unf : mbLoop e row (fuel + 1) addr = (do
      let a ← macroblock e row addr
      let v ← MB.lift (BR.peek 23)
      if v = 0 then pure () else mbLoop e row fuel (some a)) := rfl
    rw [unf]
    rcases lax_fwd he hl hb hx row addr with hp | ⟨a, s', h, t⟩
    · exact .inl (Reads.bind_panic' hp)
    · refine .inr ⟨a, s', t, ?_, ?_⟩
      · have := t.bits; rw [hb] at this; exact (List.append_cancel_left this).symm
      · have hb' : s'.br.bits = x := by have := t.bits; rw [hb] at this; exact (List.append_cancel_left this).symm
        rw [Go.bind_ok h, Go.bind_ok (mlift_run (BR.peek_ok (by rw [hb']; omega))), hb']
  induction hl with
  | one l hl =>
    intro fuel addr s r hb hz hr
    cases fuel with
    | zero => exact .inr (.inl rfl)
    | succ fuel =>
      rcases step l hl fuel addr s r hb hr with hp | ⟨a, s', t, hb', h⟩
      · exact .inl hp
      · rw [h, hz, natOfBits_zeros, if_pos rfl]
        exact .inr (.inr ⟨s', rfl, t⟩)
  | cons l m hl hm ih =>
    intro fuel addr s r hb hz hr
    cases fuel with
    | zero => exact .inr (.inl rfl)
    | succ fuel =>
      rcases step l hl fuel addr s (m ++ r) (by rw [hb, List.append_assoc]) (by rw [List.length_append]; omega) with
        hp | ⟨a, s', t, hb', h⟩
      · exact .inl hp
      · rw [h, if_neg (natOfBits_true (many_first hm r))]
        rcases ih fuel (some a) s' r hb' hz hr with h1 | h1 | ⟨s'', h1, t'⟩
        · exact .inl h1
        · exact .inr (.inl h1)
        · exact .inr (.inr ⟨s'', h1, t.trans t'⟩)

theorem mbLoop_bwd {e : PicEnv} (he : Plain e) (row : Nat) : ∀ (fuel : Nat) (addr : Option Nat) (s s' : MB) (u : Unit),
    s.br.later = [] → mbLoop e row fuel addr s = (.ok u, s') →
    ∃ l, Many (LaxWord e) l ∧ Took s.br l s'.br ∧ 23 ≤ s'.br.bits.length ∧ s'.br.bits.take 23 = zeros 23
  | 0, addr, s, s', u, _, h => by cases h
  | fuel + 1, addr, s, s', u, hlat, h => by
    unfold mbLoop at h
    obtain ⟨a, s1, h1, h2⟩ := Go.bind_eq_ok h
    obtain ⟨v, s2, h3, h4⟩ := Go.bind_eq_ok h2
    obtain ⟨hs, hlen, hv⟩ := BR.peek_inv (mlift_inv h3)
    have e2 : s2 = s1 := by
      rw [mlift_run (BR.peek_ok hlen)] at h3
      cases h3; rfl
    subst e2
    rcases mb_bwd he hlat h1 with ⟨l, hl, t⟩ | ⟨hz, -⟩
    · split at h4
      · rename_i h0
        cases h4
        refine ⟨l, .one l hl, t, hlen, ?_⟩
        have hl23 : (s'.br.bits.take 23).length = 23 := by rw [List.length_take]; omega
        rw [← bitsOf_natOfBits' hl23, ← hv, h0, bitsOf_zero]
      · obtain ⟨m, hm, t', k1, k2⟩ := mbLoop_bwd he row fuel _ _ _ _ (by rw [t.later, hlat]) h4
        exact ⟨l ++ m, .cons l m hl hm, t.trans t', k1, k2⟩
    · rw [hz] at hlen; simp at hlen

/-! ### the slice header -/

theorem sliceHeader_split (v : Nat) : sliceHeader v = Go.opt (decide (2800 < v)) 0 (BR.read 3) >>= fun _ => sliceHeader 0 := by
  have h : ∀ v, sliceHeader v = Go.opt (decide (2800 < v)) 0 (BR.read 3) >>= fun _ => (do
    let qsc ← BR.read 5
    let v ← BR.peek 1
    Go.opt (v == 1) () do
      let _ ← BR.read1
      let _ ← BR.read1
      let r ← BR.read 7
      Go.check (r == 0) .invalidReservedBits
      let _ ← readExtraInformation
      pure ()
    BR.skip 1
    pure qsc) := fun v => rfl
  have h0 : sliceHeader 0 = (do
    let qsc ← BR.read 5
    let v ← BR.peek 1
    Go.opt (v == 1) () do
      let _ ← BR.read1
      let _ ← BR.read1
      let r ← BR.read 7
      Go.check (r == 0) .invalidReservedBits
      let _ ← readExtraInformation
      pure ()
    BR.skip 1
    pure qsc) := rfl
  rw [h, h0]

/-- The slice header after the start code. -/
def SliceHead (v : Nat) (l : List Bool) : Prop :=
  ∃ (ext q : List Bool) (info : Option (Bool × List Nat)), l = ext ++ (q ++ infoBits info) ∧
    ext.length = (if 2800 < v then 3 else 0) ∧ q.length = 5 ∧ ∀ i, info = some i → ∀ x ∈ i.2, x < 256

theorem reads_sliceHeader0 (e : PicEnv) : Reads id (sliceHeader 0) (fun _ => ())
    (fun l _ => ∃ (q : List Bool) (info : Option (Bool × List Nat)), l = q ++ infoBits info ∧ q.length = 5 ∧
      ∀ i, info = some i → ∀ x ∈ i.2, x < 256) := by
  constructor
  · rintro l u s r ⟨q, info, rfl, hq, hi⟩ hb hr
    obtain ⟨bits, pos, stop, later⟩ := s
    dsimp only [id] at hb
    subst hb
    have hlt := natOfBits_lt q
    rw [hq] at hlt
    have := sliceHeader_run (stop := stop) (later := later) (e := { e with sh := { e.sh with verticalSizeValue := 0 } })
      (sl := ⟨0, natOfBits q, info, []⟩) hlt hi r pos
    unfold SliceData.fields at this
    dsimp only at this
    rw [if_neg (by decide), List.nil_append, bitsOf_natOfBits' hq] at this
    exact .inr ⟨_, _, this, rfl, ⟨rfl, rfl, rfl, rfl⟩⟩
  · intro s a s' h
    unfold sliceHeader at h
    rw [show decide (2800 < 0) = false from rfl, Go.opt_false, pure_bind] at h
    obtain ⟨qv, s1, h1, h⟩ := Go.bind_eq_ok h
    obtain ⟨v, s2, h2, h⟩ := Go.bind_eq_ok h
    obtain ⟨u, s3, h3, h⟩ := Go.bind_eq_ok h
    obtain ⟨u', s4, h4, h⟩ := Go.bind_eq_ok h
    cases h
    obtain ⟨q, t1, hq, -⟩ := BR.read_inv h1
    obtain ⟨rfl, hlen, hv⟩ := BR.peek_inv h2
    obtain ⟨z, t4, hz⟩ := BR.skip_inv h4
    cases hb : s2.bits with
    | nil => rw [hb] at hlen; simp at hlen
    | cons b rest =>
      rw [hb] at hv
      simp only [List.take_succ_cons, List.take_zero] at hv
      cases b with
      | false =>
        have : v = 0 := hv
        subst this
        cases h3
        have hz' : z = [false] := by
          have := t4.bits
          rw [hb] at this
          match z, hz with
          | [y], _ => simp only [List.cons_append, List.nil_append, List.cons.injEq] at this; rw [← this.1]
        subst hz'
        exact ⟨q ++ infoBits none, ⟨q, none, rfl, hq, by simp⟩, t1.trans t4⟩
      | true =>
        have : v = 1 := hv
        subst this
        rw [show ((1 : Nat) == 1) = true from rfl, Go.opt_true] at h3
        obtain ⟨b1, r1, g1, h3⟩ := Go.bind_eq_ok h3
        obtain ⟨b2, r2, g2, h3⟩ := Go.bind_eq_ok h3
        obtain ⟨b3, r3, g3, h3⟩ := Go.bind_eq_ok h3
        obtain ⟨b4, r4, g4, h3⟩ := Go.bind_eq_ok h3
        obtain ⟨b5, r5, g5, h3⟩ := Go.bind_eq_ok h3
        cases h3
        have w1 := BR.read1_inv g1
        have hb1 : b1 = true := by
          have := w1.bits
          rw [hb] at this
          simp only [List.cons_append, List.nil_append, List.cons.injEq] at this
          exact this.1.symm
        subst hb1
        have w2 := BR.read1_inv g2
        obtain ⟨w3, -⟩ := PES.read_inv' g3
        have hb3 : b3 = 0 := by
          by_cases hh : b3 = 0
          · exact hh
          · have : (b3 == 0) = false := by simpa using hh
            rw [this] at g4; cases g4
        subst hb3
        cases g4
        unfold readExtraInformation at g5
        obtain ⟨w5, hx, r9, e9⟩ := extraLoop_inv _ g5
        have hz' : z = [false] := by
          have := t4.bits
          rw [e9] at this
          match z, hz with
          | [y], _ => simp only [List.cons_append, List.nil_append, List.cons.injEq] at this; rw [← this.1]
        subst hz'
        refine ⟨q ++ infoBits (some (b2, b5)), ⟨q, some (b2, b5), rfl, hq, ?_⟩, ?_⟩
        · intro i hi
          cases hi
          exact hx
        · have := t1.trans (w1.trans (w2.trans (w3.trans (w5.trans t4))))
          simpa only [id, infoBits, encExtra, List.append_assoc, List.cons_append, List.nil_append] using this

theorem reads_sliceHeader (e : PicEnv) (v : Nat) : Reads id (sliceHeader v) (fun _ => ()) (fun l _ => SliceHead v l) := by
  rw [sliceHeader_split]
  refine (Reads.seq (reads_read 3).opt.forget fun _ _ => reads_sliceHeader0 e).congr fun l u => ?_
  unfold SliceHead
  constructor
  · rintro ⟨ext, l2, u', rfl, ⟨b, h1⟩, q, info, rfl, hq, hi⟩
    refine ⟨ext, q, info, rfl, ?_, hq, hi⟩
    by_cases h : 2800 < v
    · rw [decide_eq_true h, if_pos rfl] at h1
      rw [if_pos h]; exact h1.1
    · rw [decide_eq_false h, if_neg (by decide)] at h1
      rw [if_neg h, h1.1]; rfl
  · rintro ⟨ext, q, info, rfl, h1, hq, hi⟩
    refine ⟨ext, _, (), rfl, ?_, q, info, rfl, hq, hi⟩
    by_cases h : 2800 < v
    · rw [if_pos h] at h1
      exact ⟨natOfBits ext, by rw [decide_eq_true h, if_pos rfl]; exact ⟨h1, rfl⟩⟩
    · rw [if_neg h] at h1
      exact ⟨0, by rw [decide_eq_false h, if_neg (by decide)]; exact ⟨List.length_eq_zero_iff.mp h1, rfl⟩⟩

/-! ### slices -/

theorem sliceWord_iff {e : PicEnv} {M : List Bool → Prop} {l : List Bool} :
    SliceWord e M l ↔ ∃ row head mbs, l = bitsOf 32 (0x101 + row) ++ (head ++ mbs) ∧ row < 175 ∧
      SliceHead e.sh.verticalSizeValue head ∧ Many M mbs := by
  constructor
  · rintro ⟨row, ext, q, mbs, info, h1, h2, h3, h4, h5⟩
    exact ⟨row, _, mbs, by simp, h1, ⟨ext, q, info, rfl, h2, h3, h4⟩, h5⟩
  · rintro ⟨row, _, mbs, rfl, h1, ⟨ext, q, info, rfl, h2, h3, h4⟩, h5⟩
    have := SliceWord.mk (e := e) (M := M) row ext q mbs info h1 h2 h3 h4 h5
    simpa using this

theorem isSlice_row {row : Nat} (h : row < 175) : isSlice (0x101 + row) = true := by
  unfold isSlice minSliceStartCode maxSliceStartCode
  simp only [Bool.and_eq_true, decide_eq_true_eq]
  omega

theorem tail_zeros {n k : Nat} {r : List Bool} : (zeros n ++ (zeros (8 * k) ++ (prefix1 ++ r))).take 23 = zeros 23 := by
  have : zeros n ++ (zeros (8 * k) ++ (prefix1 ++ r)) = zeros 23 ++ (zeros (n + 8 * k) ++ (true :: r)) := by
    unfold prefix1
    rw [← List.append_assoc, zeros_append, ← List.append_assoc, ← List.append_assoc, ← List.append_assoc, zeros_append,
      zeros_append, Nat.add_comm 23]
    simp
  rw [this]
  exact List.take_left' (by simp [zeros])

theorem nsc_run {s : BR} {k : Nat} {r : List Bool} (h : s.bits = zeros (padding s.pos) ++ (zeros (8 * k) ++ (prefix1 ++ r))) :
    nextStartCode s = (.ok (), ⟨prefix1 ++ r, s.pos + padding s.pos + 8 * k, s.stop, s.later⟩) := by
  refine (C34 s _).mpr ⟨k, r, ?_, rfl⟩
  unfold fromBoundary
  rw [h]
  exact List.drop_left' (by simp [zeros])

/-- A slice up to its macroblocks. -/
def sliceFront (e : PicEnv) : Go MB Nat := do
  let code ← MB.lift (BR.read 32)
  Go.check (isSlice code) .unexpectedStartCode
  let row := code % 256 - 1
  let s ← Go.get
  if s.frame.y.len < 16 * row * s.frame.yStride ∨ s.frame.cb.len < 8 * row * s.frame.cStride ∨
      s.frame.cr.len < 8 * row * s.frame.cStride then Go.panic
  else do
    let qsc ← MB.lift (sliceHeader e.sh.verticalSizeValue)
    Go.modify fun s => { s with dcp := DcPred.reset e.pce.intraDCPrecision, mvd := MVD.init, qsc := qsc }
    pure row

theorem slice_front (e : PicEnv) : slice e = sliceFront e >>= fun row => mbLoopAll e row >>= fun _ => MB.lift nextStartCode := by
  unfold slice sliceFront
  simp only [bind_assoc]
  refine bind_congr fun code => bind_congr fun _ => bind_congr fun s => ?_
  split
  · rfl
  · simp only [bind_assoc, pure_bind]

theorem check_reads {σ : Type} {p : σ → BR} {c : Bool} {x : Err} (h : c = true) :
    Reads p (Go.check c x : Go σ Unit) (fun _ => ()) (fun l _ => l = []) := by
  subst h
  exact Reads.silent fun s => .inr ⟨(), s, rfl, rfl⟩

theorem reads_front (e : PicEnv) : Reads MB.br (sliceFront e) (fun _ => ())
    (fun l _ => ∃ row head, l = bitsOf 32 (0x101 + row) ++ head ∧ row < 175 ∧ SliceHead e.sh.verticalSizeValue head) := by
  unfold sliceFront
  refine (Reads.bindId (w := fun _ => ()) (K := fun code l _ => isSlice code = true ∧ SliceHead e.sh.verticalSizeValue l)
    (reads_read 32).lift fun code _ => ?_).congr ?_
  · by_cases hc : isSlice code = true
    · rw [hc]
      refine (Reads.seq (check_reads rfl) fun _ _ => Reads.get_bind (w := fun _ => ())
        (K := fun l _ => SliceHead e.sh.verticalSizeValue l) fun s => ?_).congr ?_
      · split
        · exact .panic _ _
        · refine (Reads.seq (reads_sliceHeader e _).lift fun q _ => Reads.seq
            (Reads.modify (by exact fun _ => rfl)) fun _ _ => Reads.pure (fun _ => ()) _).congr fun l u => ?_
          constructor
          · rintro ⟨l1, l2, b, rfl, h1, l3, l4, b', rfl, rfl, rfl, -⟩
            simpa using h1
          · intro h
            exact ⟨l, [], (), by simp, h, [], [], (), rfl, rfl, rfl, rfl⟩
      · intro l u
        constructor
        · rintro ⟨l1, l2, b, rfl, rfl, h⟩
          exact ⟨rfl, h⟩
        · rintro ⟨-, h⟩
          exact ⟨[], l, (), rfl, rfl, h⟩
    · have hc' : isSlice code = false := by simpa using hc
      rw [hc']
      constructor
      · rintro l b s r ⟨h, -⟩
        cases h
      · intro s a s' h
        cases h
  · intro l u
    constructor
    · rintro ⟨l1, l2, code, rfl, ⟨h1, rfl⟩, h2, h3⟩
      unfold isSlice minSliceStartCode maxSliceStartCode at h2
      simp only [Bool.and_eq_true, decide_eq_true_eq] at h2
      refine ⟨natOfBits l1 - 0x101, l2, ?_, by omega, h3⟩
      rw [show 0x101 + (natOfBits l1 - 0x101) = natOfBits l1 from by omega, bitsOf_natOfBits' h1]
    · rintro ⟨row, head, rfl, h1, h2⟩
      exact ⟨_, head, _, rfl, ⟨length_bitsOf .., rfl⟩,
        by rw [natOfBits_bitsOf_of_lt (by omega)]; exact isSlice_row h1, h2⟩

theorem mbLoopAll_fwd {e : PicEnv} (he : Plain e) (row : Nat) {l : List Bool} (hl : Many (LaxWord e) l) {s : MB} {r : List Bool}
    (hb : s.br.bits = l ++ r) (hz : r.take 23 = zeros 23) (hr : 24 ≤ r.length) :
    (mbLoopAll e row s).1 = .panic ∨ ∃ s', mbLoopAll e row s = (.ok (), s') ∧ Took s.br l s'.br := by
  rcases mbLoop_fwd he row hl (fuelOf s.br) none s r hb hz hr with h | h | h
  · exact .inl h
  · exact absurd h (mbLoop_term e row _ _ s (by rw [fuelOf_eq]; omega))
  · exact .inr h

theorem slice_fwd {e : PicEnv} (he : Plain e) {l : List Bool} (hl : SliceWord e (LaxWord e) l) {s : MB} {k : Nat} {r : List Bool}
    (hb : s.br.bits = l ++ (zeros (padding (s.br.pos + l.length)) ++ (zeros (8 * k) ++ (prefix1 ++ r)))) :
    (slice e s).1 = .panic ∨ ∃ s', slice e s = (.ok (), s') ∧
      s'.br = ⟨prefix1 ++ r, s.br.pos + l.length + padding (s.br.pos + l.length) + 8 * k, s.br.stop, s.br.later⟩ := by
  obtain ⟨row, head, mbs, rfl, hrow, hhead, hmbs⟩ := sliceWord_iff.mp hl
  generalize hpad : padding (s.br.pos + (bitsOf 32 (0x101 + row) ++ (head ++ mbs)).length) = pad at *
  have hlen : 24 ≤ (zeros pad ++ (zeros (8 * k) ++ (prefix1 ++ r))).length := by
    simp only [List.length_append, show prefix1.length = 24 from rfl]; omega
  rw [slice_front]
  rcases (reads_front e).fwd (bitsOf 32 (0x101 + row) ++ head) () s (mbs ++ (zeros pad ++ (zeros (8 * k) ++ (prefix1 ++ r))))
    ⟨row, head, rfl, hrow, hhead⟩ (by rw [hb]; simp only [List.append_assoc]) (by rw [List.length_append]; omega) with
    hp | ⟨a, s1, h1, -, t1⟩
  · exact .inl (Reads.bind_panic' hp)
  rw [Go.bind_ok h1]
  have hb1 : s1.br.bits = mbs ++ (zeros pad ++ (zeros (8 * k) ++ (prefix1 ++ r))) :=
    Reads.took_split t1 (by rw [hb]; simp only [List.append_assoc])
  rcases mbLoopAll_fwd he a hmbs hb1 tail_zeros hlen with hp | ⟨s2, h2, t2⟩
  · exact .inl (Reads.bind_panic' hp)
  rw [Go.bind_ok h2]
  have hb2 : s2.br.bits = zeros pad ++ (zeros (8 * k) ++ (prefix1 ++ r)) := Reads.took_split (l' := []) t2 (by rw [hb1]; simp)
  have t := t1.trans t2
  have hpos : s2.br.pos = s.br.pos + (bitsOf 32 (0x101 + row) ++ (head ++ mbs)).length := by
    rw [t.pos, List.append_assoc]
  have := nsc_run (s := s2.br) (k := k) (r := r) (by rw [hpos, hpad, hb2])
  refine .inr ⟨{ s2 with br := ⟨prefix1 ++ r, s2.br.pos + padding s2.br.pos + 8 * k, s2.br.stop, s2.br.later⟩ }, ?_, ?_⟩
  · exact mlift_run this
  · dsimp only
    rw [hpos, hpad, t.stop, t.later]

theorem slice_bwd {e : PicEnv} (he : Plain e) {s s' : MB} {u : Unit} (hlat : s.br.later = []) (h : slice e s = (.ok u, s')) :
    ∃ l k r, SliceWord e (LaxWord e) l ∧
      s.br.bits = l ++ (zeros (padding (s.br.pos + l.length)) ++ (zeros (8 * k) ++ (prefix1 ++ r))) ∧
      s'.br = ⟨prefix1 ++ r, s.br.pos + l.length + padding (s.br.pos + l.length) + 8 * k, s.br.stop, s.br.later⟩ := by
  rw [slice_front] at h
  obtain ⟨a, s1, h1, h⟩ := Go.bind_eq_ok h
  obtain ⟨u2, s2, h2, h3⟩ := Go.bind_eq_ok h
  obtain ⟨l1, ⟨row, head, rfl, hrow, hhead⟩, t1⟩ := (reads_front e).bwd _ _ _ h1
  obtain ⟨l2, hl2, t2, hlen, hz⟩ := mbLoop_bwd he a _ _ _ _ _ (by rw [t1.later, hlat]) h2
  obtain ⟨t, ht, hb, hs⟩ := nextStartCode_inv (mlift_inv h3)
  have tt := t1.trans t2
  have hpad : t.pad = zeros t.pad.length := by
    have hp : t.pad.length ≤ 7 := by rw [ht]; unfold padding; omega
    have e1 : t.pad = (s2.br.bits.take 23).take t.pad.length := by
      rw [List.take_take, Nat.min_eq_left (by omega), hb]
      unfold Tail.bits
      rw [List.take_left' rfl]
    rw [hz] at e1
    refine e1.trans ?_
    unfold zeros
    rw [List.take_replicate, Nat.min_eq_left (by omega)]
  refine ⟨bitsOf 32 (0x101 + row) ++ (head ++ l2), t.stuffing, t.rest, sliceWord_iff.mpr ⟨row, head, l2, rfl, hrow, hhead, hl2⟩,
    ?_, ?_⟩
  · have hpos : s2.br.pos = s.br.pos + (bitsOf 32 (0x101 + row) ++ (head ++ l2)).length := by rw [tt.pos, List.append_assoc]
    rw [tt.bits, hb, ← hpos, ← ht, ← hpad]
    unfold Tail.bits
    simp only [List.append_assoc]
  · have hpos : s2.br.pos = s.br.pos + (bitsOf 32 (0x101 + row) ++ (head ++ l2)).length := by rw [tt.pos, List.append_assoc]
    rw [hs, ← hpos]
    unfold Tail.after
    rw [ht, tt.stop, tt.later]

/-! ### pictures -/

theorem code32 {c : Nat} (hc : c < 256) : prefix1 ++ bitsOf 8 c = bitsOf 32 (0x100 + c) := (code32_bits hc).symm

theorem peek32 {c : Nat} (hc : c < 256) (r : List Bool) : natOfBits ((prefix1 ++ (bitsOf 8 c ++ r)).take 32) = 0x100 + c := by
  rw [← List.append_assoc, code32 hc, List.take_left' (length_bitsOf ..), natOfBits_bitsOf_of_lt (by omega)]

theorem slice_starts {e : PicEnv} {M : List Bool → Prop} {pos : Nat} {l : List Bool} (h : SlicesWord e M pos l) :
    ∃ c r, c < 256 ∧ 1 ≤ c ∧ c ≤ 175 ∧ l = prefix1 ++ (bitsOf 8 c ++ r) := by
  have key : ∀ l, SliceWord e M l → ∃ c r, c < 256 ∧ 1 ≤ c ∧ c ≤ 175 ∧ l = prefix1 ++ (bitsOf 8 c ++ r) := by
    intro l hl
    obtain ⟨row, head, mbs, rfl, hrow, -, -⟩ := sliceWord_iff.mp hl
    exact ⟨row + 1, head ++ mbs, by omega, by omega, by omega,
      by rw [← List.append_assoc prefix1, code32 (by omega), show 0x100 + (row + 1) = 0x101 + row from by omega]⟩
  cases h with
  | one _ k l h =>
    obtain ⟨c, r, h1, h2, h3, rfl⟩ := key l h
    exact ⟨c, _, h1, h2, h3, by simp only [List.append_assoc]; rfl⟩
  | cons _ k l m h t =>
    obtain ⟨c, r, h1, h2, h3, rfl⟩ := key l h
    exact ⟨c, _, h1, h2, h3, by simp only [List.append_assoc]; rfl⟩

theorem sliceLoop_fwd {e : PicEnv} (he : Plain e) {pos : Nat} {l : List Bool} (hl : SlicesWord e (LaxWord e) pos l) :
    ∀ (fuel : Nat) (s : MB) (r : List Bool), s.br.pos = pos → s.br.bits = l ++ (prefix1 ++ r) → NoSlice r →
    (sliceLoop e fuel s).1 = .panic ∨ (sliceLoop e fuel s).1 = .hang ∨
      ∃ s', sliceLoop e fuel s = (.ok (), s') ∧ Took s.br l s'.br := by
  have unf : ∀ fuel, sliceLoop e (fuel + 1) = (do
      slice e
      let v ← MB.lift (BR.peek 32)
      if isSlice v then sliceLoop e fuel else pure ()) := fun _ => rfl
  have step : ∀ (l : List Bool), SliceWord e (LaxWord e) l → ∀ (fuel : Nat) (s : MB) (k c : Nat) (r : List Bool), c < 256 →
      s.br.bits = l ++ (zeros (padding (s.br.pos + l.length)) ++ (zeros (8 * k) ++ (prefix1 ++ (bitsOf 8 c ++ r)))) →
      (sliceLoop e (fuel + 1) s).1 = .panic ∨ ∃ s' : MB,
        s'.br = ⟨prefix1 ++ (bitsOf 8 c ++ r), s.br.pos + l.length + padding (s.br.pos + l.length) + 8 * k, s.br.stop, s.br.later⟩ ∧
        sliceLoop e (fuel + 1) s = (if isSlice (0x100 + c) then sliceLoop e fuel else pure () : Go MB Unit) s' := by
    intro l hl fuel s k c r hc hb
    rw [unf]
    rcases slice_fwd he hl hb with hp | ⟨s', h, hs⟩
    · exact .inl (Reads.bind_panic' hp)
    · refine .inr ⟨s', hs, ?_⟩
      have hbits : s'.br.bits = prefix1 ++ (bitsOf 8 c ++ r) := by rw [hs]
      rw [Go.bind_ok h, Go.bind_ok (mlift_run (BR.peek_ok (by
        rw [hbits]; simp only [List.length_append, length_bitsOf, show prefix1.length = 24 from rfl]; omega))), hbits, peek32 hc]
  induction hl with
  | one pos k l hl =>
    rintro fuel s _ rfl hb ⟨c, r, hc, hno, rfl⟩
    cases fuel with
    | zero => exact .inr (.inl rfl)
    | succ fuel =>
      rcases step l hl fuel s k c r hc (by rw [hb]; simp only [List.append_assoc]) with hp | ⟨s', hs, h⟩
      · exact .inl hp
      · have : isSlice (0x100 + c) = false := by
          unfold isSlice minSliceStartCode maxSliceStartCode
          rw [Bool.and_eq_false_iff, decide_eq_false_iff_not, decide_eq_false_iff_not]; omega
        rw [this] at h
        refine .inr (.inr ⟨s', h, ?_⟩)
        constructor
        · rw [hb, hs]
        · rw [hs]; simp only [List.length_append, zeros, List.length_replicate]; omega
        · rw [hs]
        · rw [hs]
  | cons pos k l m hl hm ih =>
    rintro fuel s r rfl hb hr
    cases fuel with
    | zero => exact .inr (.inl rfl)
    | succ fuel =>
      obtain ⟨c, x, h1, h2, h3, hmx⟩ := slice_starts hm
      rcases step l hl fuel s k c (x ++ (prefix1 ++ r)) h1 (by rw [hb, hmx]; simp only [List.append_assoc]) with hp | ⟨s', hs, h⟩
      · exact .inl hp
      · have : isSlice (0x100 + c) = true := by
          unfold isSlice minSliceStartCode maxSliceStartCode
          simp only [Bool.and_eq_true, decide_eq_true_eq]; omega
        rw [this, if_pos rfl] at h
        rw [h]
        rcases ih fuel s' r (by rw [hs]) (by rw [hs, hmx]; simp only [List.append_assoc]) hr with h | h | ⟨s'', h, t⟩
        · exact .inl h
        · exact .inr (.inl h)
        · refine .inr (.inr ⟨s'', h, ?_⟩)
          have t0 : Took s.br (l ++ (zeros (padding (s.br.pos + l.length)) ++ zeros (8 * k))) s'.br := by
            constructor
            · rw [hb, hs, hmx]; simp only [List.append_assoc]
            · rw [hs]; simp only [List.length_append, zeros, List.length_replicate]; omega
            · rw [hs]
            · rw [hs]
          have := t0.trans t
          simpa only [List.append_assoc] using this

theorem sliceLoop_bwd {e : PicEnv} (he : Plain e) : ∀ (fuel : Nat) (s s' : MB) (u : Unit), s.br.later = [] →
    sliceLoop e fuel s = (.ok u, s') →
    ∃ l r, SlicesWord e (LaxWord e) s.br.pos l ∧ Took s.br l s'.br ∧ s'.br.bits = prefix1 ++ r ∧ NoSlice r ∧
      padding s'.br.pos = 0
  | 0, s, s', u, _, h => by cases h
  | fuel + 1, s, s', u, hlat, h => by
    unfold sliceLoop at h
    obtain ⟨u1, s1, h1, h⟩ := Go.bind_eq_ok h
    obtain ⟨v, s2, h2, h3⟩ := Go.bind_eq_ok h
    obtain ⟨l, k, r, hl, hb, hs⟩ := slice_bwd he hlat h1
    obtain ⟨-, hlen, hv⟩ := BR.peek_inv (mlift_inv h2)
    have e2 : s2 = s1 := by
      rw [mlift_run (BR.peek_ok hlen)] at h2
      cases h2; rfl
    subst e2
    have t0 : Took s.br (l ++ (zeros (padding (s.br.pos + l.length)) ++ zeros (8 * k))) s2.br := by
      constructor
      · rw [hb, hs]; simp only [List.append_assoc]
      · rw [hs]; simp only [List.length_append, zeros, List.length_replicate]; omega
      · rw [hs]
      · rw [hs]
    have hbits : s2.br.bits = prefix1 ++ r := by rw [hs]
    have hr : 8 ≤ r.length := by
      rw [hbits, List.length_append, show prefix1.length = 24 from rfl] at hlen; omega
    obtain ⟨c, r', hc, rfl⟩ : ∃ c r', c < 256 ∧ r = bitsOf 8 c ++ r' := by
      refine ⟨natOfBits (r.take 8), r.drop 8, ?_, ?_⟩
      · have := natOfBits_lt (r.take 8)
        rw [List.length_take, Nat.min_eq_left hr] at this
        exact this
      · rw [bitsOf_natOfBits' (by rw [List.length_take]; omega), List.take_append_drop]
    rw [hbits, peek32 hc] at hv
    subst hv
    split at h3
    · rename_i hsl
      obtain ⟨m, r, hm, t, k1, k2, k3⟩ := sliceLoop_bwd he fuel _ _ _ (by rw [t0.later, hlat]) h3
      refine ⟨l ++ (zeros (padding (s.br.pos + l.length)) ++ (zeros (8 * k) ++ m)), r, ?_, ?_, k1, k2, k3⟩
      · rw [hs] at hm
        exact .cons _ _ _ _ hl hm
      · have := t0.trans t
        simpa only [List.append_assoc] using this
    · rename_i hsl
      cases h3
      refine ⟨_, bitsOf 8 c ++ r', .one _ k _ hl, t0, hbits, ⟨c, r', hc, ?_, rfl⟩, ?_⟩
      · unfold isSlice minSliceStartCode maxSliceStartCode at hsl
        simp only [Bool.and_eq_true, decide_eq_true_eq] at hsl
        omega
      · rw [hs]; dsimp only; unfold padding; omega

theorem slices_aligned {e : PicEnv} {M : List Bool → Prop} {pos : Nat} {l : List Bool} (h : SlicesWord e M pos l) :
    padding (pos + l.length) = 0 := by
  induction h with
  | one pos k l h => simp only [List.length_append, zeros, List.length_replicate]; unfold padding; omega
  | cons pos k l m h t ih =>
    rw [← ih]
    simp only [List.length_append, zeros, List.length_replicate]
    congr 1
    omega

/-- The run of `pictureData`. -/
def picRun (e : PicEnv) (m : MB) : Res Unit × MB := (do sliceLoop e (fuelOf m.br); MB.lift nextStartCode : Go MB Unit) m

theorem picRun_fwd {e : PicEnv} (he : Plain e) {m : MB} {l r : List Bool} (hl : SlicesWord e (LaxWord e) m.br.pos l)
    (hb : m.br.bits = l ++ (prefix1 ++ r)) (hr : NoSlice r) :
    (picRun e m).1 = .panic ∨ ∃ m', picRun e m = (.ok (), m') ∧ Took m.br l m'.br := by
  unfold picRun
  rcases sliceLoop_fwd he hl (fuelOf m.br) m r rfl hb hr with h | h | ⟨m', h, t⟩
  · exact .inl (Reads.bind_panic' h)
  · exact absurd h (sliceLoop_term e _ m (by rw [fuelOf_eq]; omega))
  · refine .inr ⟨m', ?_, t⟩
    have hb' : m'.br.bits = prefix1 ++ r := Reads.took_split (l' := []) (r := prefix1 ++ r) t (by rw [hb, List.append_nil])
    have hz : padding m'.br.pos = 0 := by rw [t.pos]; exact slices_aligned hl
    have := nsc_run (s := m'.br) (k := 0) (r := r) (by rw [hz, hb']; rfl)
    rw [hz] at this
    rw [Go.bind_ok h, mlift_run this]
    have e1 : (⟨prefix1 ++ r, m'.br.pos + 0 + 8 * 0, m'.br.stop, m'.br.later⟩ : BR) = m'.br := by rw [← hb']; rfl
    rw [e1]

theorem picRun_bwd {e : PicEnv} (he : Plain e) {m m' : MB} {u : Unit} (hlat : m.br.later = []) (h : picRun e m = (.ok u, m')) :
    ∃ l r, SlicesWord e (LaxWord e) m.br.pos l ∧ m.br.bits = l ++ (prefix1 ++ r) ∧ NoSlice r ∧ Took m.br l m'.br := by
  unfold picRun at h
  obtain ⟨u1, m1, h1, h2⟩ := Go.bind_eq_ok h
  obtain ⟨l, r, hl, t, hb, hr, hz⟩ := sliceLoop_bwd he _ _ _ _ hlat h1
  have := nsc_run (s := m1.br) (k := 0) (r := r) (by rw [hz, hb]; rfl)
  rw [hz] at this
  have e2 := (mlift_run this).symm.trans h2
  have e1 : (⟨prefix1 ++ r, m1.br.pos + 0 + 8 * 0, m1.br.stop, m1.br.later⟩ : BR) = m1.br := by rw [← hb]; rfl
  rw [e1] at e2
  cases e2
  exact ⟨l, r, hl, by rw [t.bits, hb], hr, t⟩

theorem lax_intra {e : PicEnv} (hI : e.ph.pictureCodingType = 1) {l : List Bool} (h : LaxWord e l) : MbWord e l := by
  rcases h with h | ⟨t, head, hh, ht⟩
  · exact h
  · exfalso
    obtain ⟨k, v, _, addr, type, motion, dct, q, f, b, mark, hA, hT, -, -, -, -, -, -⟩ := hh
    rw [hI] at hT
    have k1 : (isoType 1).all (fun x => !x.2.pattern) = true := by decide +kernel
    have := List.all_eq_true.1 k1 _ hT
    rw [ht] at this
    cases this

theorem SliceWord.mono {e : PicEnv} {M M' : List Bool → Prop} (h : ∀ l, M l → M' l) {l : List Bool} (hl : SliceWord e M l) :
    SliceWord e M' l := by
  obtain ⟨row, head, mbs, rfl, h1, h2, h3⟩ := sliceWord_iff.mp hl
  exact sliceWord_iff.mpr ⟨row, head, mbs, rfl, h1, h2, Many.mono h h3⟩

theorem SlicesWord.mono {e : PicEnv} {M M' : List Bool → Prop} (h : ∀ l, M l → M' l) {pos : Nat} {l : List Bool}
    (hl : SlicesWord e M pos l) : SlicesWord e M' pos l := by
  induction hl with
  | one pos k l hl => exact .one pos k l (SliceWord.mono h hl)
  | cons pos k l m hl hm ih => exact .cons pos k l m (SliceWord.mono h hl) ih

theorem pictureData_eq {s : VS} {sh : SequenceHeader} {se : SequenceExtension} {ph : PictureHeader}
    {pce : PictureCodingExtension} (h1 : s.sh = some sh) (h2 : s.se = some se) (h3 : s.ph = some ph)
    (h4 : s.pce = some pce) : ∃ m : MB, m.br = s.br ∧
      pictureData s = match picRun (s.env sh se ph pce) m with
        | (.ok _, m') => (.ok m'.frame, { s with br := m'.br })
        | (.err x, m') => (.err x, { s with br := m'.br })
        | (.panic, m') => (.panic, { s with br := m'.br })
        | (.hang, m') => (.hang, { s with br := m'.br }) := by
  refine ⟨⟨s.br, DcPred.reset pce.intraDCPrecision, MVD.init, 0, createFrameBuffer s.size.1.toNat s.size.2.toNat se.chromaFormat⟩,
    rfl, ?_⟩
  unfold pictureData picRun VS.env
  rw [h1, h2, h3, h4]
  rfl

end Mpeg.Video
