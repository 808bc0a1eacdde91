/-
Slices do not depend on each other.
-/
import Verif.Video.SliceLossSpec
import Verif.Video.RecoverLemmas
set_option linter.all false
namespace Mpeg.Video
open Spec

/-- The states are equal but for the picture. -/
structure Alike (d d' : DState) : Prop where
  dc : d.dc = d'.dc
  vec : d.vec = d'.vec
  fwd : d.fwd = d'.fwd
  bwd : d.bwd = d'.bwd
  qsc : d.qsc = d'.qsc

theorem Alike.refl (d : DState) : Alike d d := ⟨rfl, rfl, rfl, rfl, rfl⟩

section
variable {e : PicEnv} {r r' : RefPics} {W H row : Nat}

theorem Alike.skip {d d' : DState} (h : Alike d d') (a : Option Nat) (n : Nat) :
    Alike (d.skip e r row a n) (d'.skip e r' row a n) := by
  unfold DState.skip
  split
  · exact h
  · exact ⟨rfl, by show ite _ _ _ = ite _ _ _; rw [h.vec], h.fwd, h.bwd, h.qsc⟩

theorem Alike.begin {d d' : DState} (h : Alike d d') (t : MacroblockType) : Alike (d.begin e t) (d'.begin e t) := by
  unfold DState.begin
  exact ⟨by show ite _ _ _ = ite _ _ _; rw [h.dc], by show ite _ _ _ = ite _ _ _; rw [h.vec], h.fwd, h.bwd, h.qsc⟩

theorem Alike.param {d d' : DState} (h : Alike d d') (m : MbData) : Alike (d.param e m) (d'.param e m) := by
  unfold DState.param
  exact ⟨h.dc, by show (fun _ _ => _) = (fun _ _ => _); rw [h.vec], rfl, rfl, by show ite _ _ _ = ite _ _ _; rw [h.qsc]⟩

theorem Alike.recon {d d' : DState} (h : Alike d d') (a : Nat) (m : MbData) :
    Alike (d.recon e r row a m) (d'.recon e r' row a m) := by
  unfold DState.recon
  exact ⟨by show ite _ _ _ = ite _ _ _; rw [h.dc], h.vec, h.fwd, h.bwd, h.qsc⟩

theorem Alike.mb {d d' : DState} (h : Alike d d') (a : Option Nat) (m : MbData) :
    Alike (d.mb e r row a m) (d'.mb e r' row a m) := (((h.skip a _).begin _).param m).recon _ m

theorem Alike.predicted {d d' : DState} (h : Alike d d') (c x y : Nat) : d.predicted r c x y = d'.predicted r c x y := by
  unfold DState.predicted
  rw [h.vec, h.fwd, h.bwd]

/-! ### which samples a slice gives values to -/

theorem mb_cover {d d' : DState} (h : Alike d d') (a : Option Nat) (m : MbData) (c x y : Nat)
    (hc : y / side c = row ∧ x / side c ∈ mbAddrs (e.ph.pictureCodingType = 2 ∨ e.ph.pictureCodingType = 3) a [m]) :
    (d.mb e r row a m).pic c x y = (d'.mb e r row a m).pic c x y := by
  have hp := (((h.skip (e := e) (r := r) (r' := r) (row := row) a m.incr).begin (e := e) m.type).param (e := e) m)
  unfold DState.mb DState.recon
  dsimp only
  by_cases hm : inMB (side c) row (addrAfter a m.incr) x y
  · rw [if_pos hm, if_pos hm, hp.qsc, hp.predicted]
  · rw [if_neg hm, if_neg hm]
    have hx : x / side c ≠ addrAfter a m.incr := fun hx => hm ⟨hx, hc.1⟩
    have h2 := hc.2
    unfold mbAddrs at h2
    rw [List.mem_cons] at h2
    have h2 := h2.resolve_left hx
    show (d.skip e r row a m.incr).pic c x y = (d'.skip e r row a m.incr).pic c x y
    cases a with
    | none => simp [mbAddrs] at h2
    | some a =>
      simp only [mbAddrs, List.append_nil] at h2
      by_cases hs : e.ph.pictureCodingType = 2 ∨ e.ph.pictureCodingType = 3
      · rw [decide_eq_true hs, if_pos rfl, List.mem_range'_1] at h2
        have hi : ¬ m.incr ≤ 1 := by omega
        unfold DState.skip
        rw [if_neg hi, if_neg hi]
        show d.skipPic e.ph.pictureCodingType r row a (m.incr - 1) c x y = d'.skipPic e.ph.pictureCodingType r row a (m.incr - 1) c x y
        unfold DState.skipPic
        have hr : inRun (side c) row (a + 1) (m.incr - 1) x y := ⟨h2.1, h2.2, hc.1⟩
        rw [if_pos hr, if_pos hr]
        rcases hs with hs | hs <;> rw [hs]
        · rfl
        · exact h.predicted c x y
      · rw [decide_eq_false hs] at h2
        simp at h2

theorem mb_uncovered {d : DState} (a : Option Nat) (m : MbData) (c x y : Nat)
    (hc : ¬ (y / side c = row ∧ x / side c ∈ mbAddrs (e.ph.pictureCodingType = 2 ∨ e.ph.pictureCodingType = 3) a [m])) :
    (d.mb e r row a m).pic c x y = d.pic c x y := by
  unfold DState.mb DState.recon
  dsimp only
  rw [if_neg (fun hm => hc ⟨hm.2, by rw [hm.1]; unfold mbAddrs; exact List.mem_cons_self ..⟩)]
  show (d.skip e r row a m.incr).pic c x y = d.pic c x y
  unfold DState.skip
  split
  · rfl
  · cases a with
    | none => rfl
    | some a =>
      show d.skipPic e.ph.pictureCodingType r row a (m.incr - 1) c x y = _
      unfold DState.skipPic
      split
      · rename_i hr
        by_cases hs : e.ph.pictureCodingType = 2 ∨ e.ph.pictureCodingType = 3
        · refine absurd ⟨hr.2.2, ?_⟩ hc
          unfold mbAddrs
          rw [decide_eq_true hs]
          exact List.mem_cons_of_mem _ (List.mem_append_left _ (List.mem_range'_1.2 ⟨hr.1, hr.2.1⟩))
        · rw [if_neg (fun h => hs (.inl h)), if_neg (fun h => hs (.inr h))]
      · rfl

theorem mem_mbAddrs {sk : Bool} {a : Option Nat} {m : MbData} {ms : List MbData} {n : Nat} :
    n ∈ mbAddrs sk a (m :: ms) ↔ n ∈ mbAddrs sk a [m] ∨ n ∈ mbAddrs sk (some (addrAfter a m.incr)) ms := by
  show n ∈ addrAfter a m.incr :: (_ ++ _) ↔ n ∈ addrAfter a m.incr :: (_ ++ mbAddrs sk (some (addrAfter a m.incr)) []) ∨ _
  simp only [List.mem_cons, List.mem_append]
  simp only [mbAddrs, List.not_mem_nil, or_false]
  exact or_assoc.symm

theorem mbs_uncovered {c x y : Nat} : ∀ {ms : List MbData} {a : Option Nat} {d : DState},
    ¬ (y / side c = row ∧ x / side c ∈ mbAddrs (e.ph.pictureCodingType = 2 ∨ e.ph.pictureCodingType = 3) a ms) →
    (DState.mbs e r row a d ms).pic c x y = d.pic c x y
  | [], _, _, _ => rfl
  | m :: ms, a, d, h => by
    unfold DState.mbs
    rw [mbs_uncovered (fun k => h ⟨k.1, mem_mbAddrs.2 (.inr k.2)⟩), mb_uncovered _ _ _ _ _ (fun k => h ⟨k.1, mem_mbAddrs.2 (.inl k.2)⟩)]

theorem mbs_cover {c x y : Nat} : ∀ {ms : List MbData} {a : Option Nat} {d d' : DState}, Alike d d' →
    (y / side c = row ∧ x / side c ∈ mbAddrs (e.ph.pictureCodingType = 2 ∨ e.ph.pictureCodingType = 3) a ms) →
    (DState.mbs e r row a d ms).pic c x y = (DState.mbs e r row a d' ms).pic c x y
  | [], _, _, _, _, h => by simp [mbAddrs] at h
  | m :: ms, a, d, d', hd, h => by
    unfold DState.mbs
    by_cases hk : x / side c ∈ mbAddrs (e.ph.pictureCodingType = 2 ∨ e.ph.pictureCodingType = 3) (some (addrAfter a m.incr)) ms
    · exact mbs_cover (hd.mb a m) ⟨h.1, hk⟩
    · rw [mbs_uncovered (fun k => hk k.2), mbs_uncovered (fun k => hk k.2)]
      exact mb_cover hd a m c x y ⟨h.1, (mem_mbAddrs.1 h.2).resolve_right hk⟩

theorem image_uncovered {sl : SliceData} {P : Image} {c x y : Nat} (h : ¬ sl.Covers e.ph.pictureCodingType c x y) :
    sl.image e r P c x y = P c x y := mbs_uncovered h

theorem image_cover {sl : SliceData} {P P' : Image} {c x y : Nat} (h : sl.Covers e.ph.pictureCodingType c x y) :
    sl.image e r P c x y = sl.image e r P' c x y := mbs_cover (d := sl.start e P) (d' := sl.start e P') ⟨rfl, rfl, rfl, rfl, rfl⟩ h

theorem slices_uncovered {c x y : Nat} : ∀ {sls : List SliceData} {P : Image}, (∀ sl ∈ sls, ¬ sl.Covers e.ph.pictureCodingType c x y) →
    slicesImage e r P sls c x y = P c x y
  | [], _, _ => rfl
  | sl :: sls, P, h => by
    show slicesImage e r (sl.image e r P) sls c x y = _
    rw [slices_uncovered (fun s hs => h s (List.mem_cons_of_mem _ hs)), image_uncovered (h sl List.mem_cons_self)]

/-- slices that do not touch the sample may be left out -/
theorem slices_lost {c x y : Nat} : ∀ {ps : List (SliceData × Bool)} {P P' : Image},
    (∀ p ∈ ps, p.2 = false → ¬ p.1.Covers e.ph.pictureCodingType c x y) → P c x y = P' c x y →
    slicesImage e r P' ((ps.filter (·.2)).map (·.1)) c x y = slicesImage e r P (ps.map (·.1)) c x y
  | [], P, P', _, hP => hP.symm
  | (sl, true) :: ps, P, P', h, hP => by
    show slicesImage e r (sl.image e r P') ((ps.filter (·.2)).map (·.1)) c x y = slicesImage e r (sl.image e r P) (ps.map (·.1)) c x y
    refine slices_lost (fun p hp => h p (List.mem_cons_of_mem _ hp)) ?_
    by_cases hc : sl.Covers e.ph.pictureCodingType c x y
    · exact image_cover hc
    · rw [image_uncovered hc, image_uncovered hc, hP]
  | (sl, false) :: ps, P, P', h, hP => by
    show slicesImage e r P' ((ps.filter (·.2)).map (·.1)) c x y = slicesImage e r (sl.image e r P) (ps.map (·.1)) c x y
    refine slices_lost (fun p hp => h p (List.mem_cons_of_mem _ hp)) ?_
    rw [image_uncovered (h _ List.mem_cons_self rfl), hP]

/-! ### slices can be coded anywhere -/

theorem padding_congr {p q : Nat} (h : p % 8 = q % 8) : padding p = padding q := by unfold padding; rw [h]

theorem bits_cast' {d d' : DState} {m : MbData} (h : Alike d d') (c : MbCode e d m) :
    ∃ c' : MbCode e d' m, c'.bits = c.bits :=
  ⟨{ k := c.k, v := c.v, addr := c.addr, type := c.type, vecs := c.vecs, pattern := c.pattern, blocks := c.blocks
     hIncr := c.hIncr, hAddr := c.hAddr, hType := c.hType, hDct := c.hDct, hQ := c.hQ
     hVec := by rw [← h.vec]; exact c.hVec
     hPattern := c.hPattern, hCoded := by rw [← h.dc]; exact c.hCoded, hUncoded := c.hUncoded, hDc := c.hDc }, rfl⟩

theorem Alike.inside {d d' : DState} (h : Alike d d') {row addr : Nat} (hi : DState.Inside d W H row addr) :
    DState.Inside d' W H row addr := by
  unfold DState.Inside at hi ⊢
  rw [← h.fwd, ← h.bwd, ← h.vec]
  exact hi

theorem mbs_move (hr : r.past ≠ none → r'.past ≠ none) : ∀ {ms : List MbData} {a : Option Nat} {d d' : DState} {bits : List Bool},
    Alike d d' → MbsCode e r W H row a d ms bits → MbsCode e r' W H row a d' ms bits
  | [], a, d, d', _, _, hc => by cases hc; exact .nil
  | m :: ms, a, d, d', _, hd, hc => by
    cases hc with
    | @cons _ _ _ _ bits hl code hm =>
      have hs := hd.skip (e := e) (r := r) (r' := r') (row := row) a m.incr
      obtain ⟨c', hc'⟩ := bits_cast' (hs.begin m.type) code
      rw [← hc']
      refine .cons ⟨hl.inPicture, fun x hx hi hp => hr (hl.skipP x hx hi hp), fun x hx hp b h1 h2 => hd.inside (hl.skipB x hx hp b h1 h2),
        ((hs.begin m.type).param m).inside hl.vectors, hl.frameDct⟩ c' (mbs_move hr (hd.mb a m) hm)

theorem slice_move (hr : r.past ≠ none → r'.past ≠ none) {P P' : Image} {sl : SliceData} {bits : List Bool}
    (hc : SliceCode e r W H P sl bits) : SliceCode e r' W H P' sl bits := by
  obtain ⟨b, hb, hbits⟩ := hc.body
  exact ⟨hc.row, hc.maxRow, hc.q, hc.info, hc.nonempty, b, mbs_move hr (d := sl.start e P) (d' := sl.start e P') ⟨rfl, rfl, rfl, rfl, rfl⟩ hb, hbits⟩

theorem slices_move (hr : r.past ≠ none → r'.past ≠ none) : ∀ {sls : List SliceData} {pos pos' : Nat} {P P' : Image} {bits : List Bool},
    pos % 8 = pos' % 8 → SlicesCode e r W H pos P sls bits → SlicesCode e r' W H pos' P' sls bits
  | [], _, _, _, _, _, _, hc => by cases hc; exact .nil
  | sl :: sls, pos, pos', P, P', _, hp, hc => by
    cases hc with
    | @cons _ _ _ _ bits more k hs hm =>
      have h1 : (pos + bits.length) % 8 = (pos' + bits.length) % 8 := by omega
      have h2 := SlicesCode.cons (pos := pos') k (slice_move hr (P' := P') hs) (slices_move hr (pos' := pos' + bits.length + padding (pos' + bits.length) + 8 * k)
        (P' := sl.image e r' P') (by rw [padding_congr h1]; omega) hm)
      rw [padding_congr h1]
      exact h2

/-- the bits of slices, one after the other -/
theorem slices_split : ∀ {sls : List SliceData} {pos : Nat} {P : Image} {bits : List Bool}, pos % 8 = 0 →
    SlicesCode e r W H pos P sls bits → ∃ bs : List (List Bool), bs.length = sls.length ∧ bits = bs.flatten ∧
      ∀ p ∈ sls.zip bs, SlicesCode e r W H 0 blank [p.1] p.2
  | [], _, _, _, _, hc => by cases hc; exact ⟨[], rfl, rfl, fun p hp => by simp at hp⟩
  | sl :: sls, pos, P, _, hp, hc => by
    cases hc with
    | @cons _ _ _ _ bits more k hs hm =>
      have h1 : (pos + bits.length + padding (pos + bits.length) + 8 * k) % 8 = 0 := by unfold padding; omega
      obtain ⟨bs, b1, b2, b3⟩ := slices_split h1 hm
      refine ⟨(bits ++ (zeros (padding (pos + bits.length)) ++ zeros (8 * k))) :: bs, by simp [b1], ?_, ?_⟩
      · rw [List.flatten_cons, ← b2]; simp only [List.append_assoc]
      · intro p hp'
        rw [List.zip_cons_cons, List.mem_cons] at hp'
        rcases hp' with rfl | hp'
        · have h2 := SlicesCode.cons (pos := pos) k hs (.nil (pos := _))
          rw [List.append_nil] at h2
          exact slices_move (fun h => h) (by omega) h2
        · exact b3 p hp'

theorem slices_bytes {sls : List SliceData} {pos : Nat} {P : Image} {bits : List Bool} (hp : pos % 8 = 0) :
    SlicesCode e r W H pos P sls bits → bits.length % 8 = 0 := by
  intro h
  induction h with
  | nil => rfl
  | @cons pos P sl sls bits more k hs hm ih =>
    have h1 : (pos + bits.length + padding (pos + bits.length) + 8 * k) % 8 = 0 := by unfold padding; omega
    have h2 := ih h1
    have h3 : (bits.length + padding (pos + bits.length)) % 8 = 0 := by unfold padding; omega
    simp only [List.length_append, List.length_replicate, zeros]
    omega

theorem slices_append {sls sls' : List SliceData} {pos : Nat} {P : Image} {bits bits' : List Bool}
    (h : SlicesCode e r W H pos P sls bits) :
    SlicesCode e r W H (pos + bits.length) (slicesImage e r P sls) sls' bits' → SlicesCode e r W H pos P (sls ++ sls') (bits ++ bits') := by
  induction h with
  | nil => intro h; exact h
  | @cons pos P sl sls bits more k hs hm ih =>
    intro h
    simp only [List.append_assoc, List.cons_append]
    refine .cons k hs (ih ?_)
    simp only [List.length_append, List.length_replicate, zeros] at h
    rw [show pos + bits.length + padding (pos + bits.length) + 8 * k + more.length =
      pos + (bits.length + (padding (pos + bits.length) + (8 * k + more.length))) by omega]
    exact h

/-- slices that are coded one by one -/
theorem slices_join : ∀ {ps : List (SliceData × List Bool)} {pos : Nat} {P : Image}, pos % 8 = 0 →
    (∀ p ∈ ps, SlicesCode e r W H 0 blank [p.1] p.2) → SlicesCode e r W H pos P (ps.map (·.1)) (ps.flatMap (·.2))
  | [], _, _, _, _ => .nil
  | p :: ps, pos, P, hp, h => by
    have h1 := slices_move (fun h => h) (pos' := pos) (P' := P) (by omega) (h p List.mem_cons_self)
    have h2 := slices_bytes hp h1
    exact slices_append h1 (slices_join (by omega) fun q hq => h q (List.mem_cons_of_mem _ hq))

end

end Mpeg.Video
