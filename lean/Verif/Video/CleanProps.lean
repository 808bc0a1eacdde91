/-
C146: the data of slices do not imitate start codes.
-/
import Verif.Video.CleanSpec
import Verif.Video.HeaderProps
import Verif.Video.SynProps
set_option linter.all false
namespace Mpeg.Video
open Spec

/-! ### runs of zeros -/

/-- The number of zeros at the end, if there are `t` in front, unless 23 come in a row. -/
def zeroRun : Nat → List Bool → Option Nat
  | t, [] => some t
  | _, true :: l => zeroRun 0 l
  | t, false :: l => if t < 22 then zeroRun (t + 1) l else none

/-- Behind at most `a` zeros there are never 23 in a row, and at most `b` at the end. -/
def Fit (a b : Nat) (w : List Bool) : Prop := ∀ t ≤ a, ∃ u ≤ b, zeroRun t w = some u

/-- the same as a test -/
def fits (a b : Nat) (w : List Bool) : Bool := (List.range (a + 1)).all fun t => match zeroRun t w with
  | some u => decide (u ≤ b)
  | none => false

theorem zeroRun_append : ∀ (v w : List Bool) (t : Nat), zeroRun t (v ++ w) = (zeroRun t v).bind fun u => zeroRun u w
  | [], w, t => rfl
  | true :: v, w, t => zeroRun_append v w 0
  | false :: v, w, t => by
    simp only [List.cons_append, zeroRun]
    split
    · exact zeroRun_append v w (t + 1)
    · rfl

theorem Fit.of_fits {a b : Nat} {w : List Bool} (h : fits a b w = true) : Fit a b w := fun t ht => by
  have := List.all_eq_true.mp h t (List.mem_range.mpr (by omega))
  cases e : zeroRun t w with
  | none => rw [e] at this; cases this
  | some u => rw [e] at this; exact ⟨u, by simpa using this, rfl⟩

theorem Fit.nil (a : Nat) : Fit a a [] := fun t ht => ⟨t, ht, rfl⟩
theorem Fit.mono {a b a' b' : Nat} {w : List Bool} (h : Fit a b w) (ha : a' ≤ a) (hb : b ≤ b') : Fit a' b' w := fun t ht => by
  obtain ⟨u, hu, e⟩ := h t (by omega)
  exact ⟨u, by omega, e⟩
theorem Fit.append {a b c : Nat} {v w : List Bool} (h : Fit a b v) (h' : Fit b c w) : Fit a c (v ++ w) := fun t ht => by
  obtain ⟨u, hu, e⟩ := h t ht
  obtain ⟨x, hx, e'⟩ := h' u hu
  exact ⟨x, hx, by rw [zeroRun_append, e]; exact e'⟩
theorem Fit.any : ∀ {w : List Bool} {a : Nat} (k : Nat), w.length ≤ k → a + k ≤ 22 → Fit a (a + k) w
  | [], a, k, _, _ => (Fit.nil a).mono (Nat.le_refl _) (by omega)
  | true :: w, a, k, hk, h => fun t ht => by
    simp only [List.length_cons] at hk
    exact (Fit.any (w := w) (a := 0) (k - 1) (by omega) (by omega)).mono (Nat.le_refl _) (b' := a + k) (by omega) 0 (Nat.le_refl _)
  | false :: w, a, k, hk, h => fun t ht => by
    simp only [List.length_cons] at hk
    simp only [zeroRun]
    rw [if_pos (by omega)]
    exact (Fit.any (w := w) (a := a + 1) (k - 1) (by omega) (by omega)).mono (Nat.le_refl _) (b' := a + k) (by omega) (t + 1) (by omega)
theorem Fit.one : ∀ {w : List Bool} {a : Nat} (k : Nat), true ∈ w → w.length ≤ k + 1 → a + k ≤ 22 → Fit a k w
  | true :: w, a, k, _, hk, h => fun t ht => by
    simp only [List.length_cons] at hk
    exact (Fit.any (w := w) (a := 0) k (by omega) (by omega)).mono (Nat.le_refl _) (b' := k) (by omega) 0 (Nat.le_refl _)
  | false :: w, a, k, hm, hk, h => fun t ht => by
    simp only [List.length_cons] at hk
    have hw : true ∈ w := by simpa using hm
    have : w.length ≠ 0 := fun e => by rw [List.length_eq_zero_iff.mp e] at hw; cases hw
    simp only [zeroRun]
    rw [if_pos (by omega)]
    exact (Fit.one (w := w) (a := a + 1) (k - 1) hw (by omega) (by omega)).mono (Nat.le_refl _) (b' := k) (by omega) (t + 1) (by omega)

theorem zeroRun_zeros : ∀ (n t : Nat), 23 ≤ t + n → t ≤ 22 → zeroRun t (zeros n) = none
  | 0, t, h, h' => by omega
  | n + 1, t, h, h' => by
    show (if t < 22 then zeroRun (t + 1) (zeros n) else none) = none
    split
    · exact zeroRun_zeros n (t + 1) (by omega) (by omega)
    · rfl
theorem zeroRun_le : ∀ (w : List Bool) {t u : Nat}, t ≤ 22 → zeroRun t w = some u → u ≤ 22
  | [], t, u, ht, h => by cases h; exact ht
  | true :: w, t, u, ht, h => zeroRun_le w (Nat.zero_le _) h
  | false :: w, t, u, ht, h => by
    simp only [zeroRun] at h
    split at h
    · exact zeroRun_le w (by omega) h
    · cases h

/-- A string without 23 zeros in a row contains no start code prefix. -/
theorem Fit.no_prefix {a b : Nat} {w x y : List Bool} (h : Fit a b w) : w ≠ x ++ (prefix1 ++ y) := fun e => by
  obtain ⟨u, _, h⟩ := h 0 (Nat.zero_le _)
  rw [e, zeroRun_append] at h
  cases hx : zeroRun 0 x with
  | none => rw [hx] at h; cases h
  | some v =>
    rw [hx] at h
    change zeroRun v (zeros 23 ++ [true] ++ y) = some u at h
    rw [List.append_assoc, zeroRun_append, zeroRun_zeros 23 v (by omega) (zeroRun_le x (Nat.zero_le _) hx)] at h
    cases h

/-! ### the elements -/

theorem fit_table {α : Type} {a b : Nat} {T : List (List Bool × α)} (h : (T.all fun x => fits a b x.1) = true) {c : List Bool} {v : α}
    (hm : (c, v) ∈ T) : Fit a b c := .of_fits (List.all_eq_true.mp h _ hm)

theorem fit_escapes : ∀ k, Fit 14 14 (escapes k)
  | 0 => .nil _
  | k + 1 => ((Fit.of_fits (a := 14) (b := 3) (by decide +kernel)).mono (Nat.le_refl _) (by omega) : Fit 14 14 addressEscape).append (fit_escapes k)
theorem fit_address {c : List Bool} {v : Nat} (h : (c, v) ∈ isoAddress) : Fit 14 5 c := fit_table (by decide +kernel) h

/-- what the types tell about the zeros around them -/
def typeOK (x : List Bool × MacroblockType) : Bool :=
  fits 5 1 x.1 && (!x.2.intra || fits 5 0 x.1 && !x.2.forward && !x.2.backward)

theorem type_ok {pct : Nat} {c : List Bool} {t : MacroblockType} (h : (c, t) ∈ isoType pct) : typeOK (c, t) = true := by
  unfold isoType at h
  split at h
  · exact List.all_eq_true.mp (by decide +kernel : isoTypeI.all typeOK = true) _ h
  · split at h
    · exact List.all_eq_true.mp (by decide +kernel : isoTypeP.all typeOK = true) _ h
    · split at h
      · exact List.all_eq_true.mp (by decide +kernel : isoTypeB.all typeOK = true) _ h
      · cases h
theorem type_uses {pct : Nat} {c : List Bool} {t : MacroblockType} (h : (c, t) ∈ isoType pct) :
    (t.forward = true → pct ≠ 1) ∧ (t.backward = true → pct = 3) := by
  unfold isoType at h
  split at h
  · rename_i e
    have := List.all_eq_true.mp (by decide +kernel : (isoTypeI.all fun x => !x.2.forward && !x.2.backward) = true) _ h
    simp at this
    simp [this.1, this.2]
  · rename_i e
    split at h
    · have := List.all_eq_true.mp (by decide +kernel : (isoTypeP.all fun x => !x.2.backward) = true) _ h
      simp at this
      simp [this, e]
    · split at h
      · exact ⟨fun _ => e, fun _ => by assumption⟩
      · cases h

theorem fit_part {f : Nat} (hf : f ≤ 9) {l : List Bool} (h : PartWord f l) : Fit 15 13 l := by
  obtain ⟨c, r, code, h, hr⟩ := h
  have hc : Fit 15 5 c := fit_table (by decide +kernel) h
  have : r.length ≤ 8 := by rw [hr]; split <;> omega
  exact hc.append (Fit.any 8 this (by omega))
theorem fit_dmv {dual : Bool} {l : List Bool} (h : DmvWord dual l) : Fit 13 14 l := by
  have hl : l.length ≤ 2 := by
    unfold DmvWord at h
    split at h
    · rcases h with rfl | rfl | rfl <;> simp
    · subst h; simp
  unfold DmvWord at h
  split at h
  · rcases h with rfl | rfl | rfl <;> exact .of_fits (by decide +kernel)
  · subst h; exact (Fit.nil 13).mono (Nat.le_refl _) (by omega)
theorem fit_vector {fh fv : Nat} {dual : Bool} (hh : fh ≤ 9) (hv : fv ≤ 9) {l : List Bool} (h : VectorWord fh fv dual l) : Fit 15 14 l := by
  obtain ⟨a, b, c, d, ha, hb, hc, hd⟩ := h
  exact (fit_part hh ha).append ((fit_dmv hb).append (((fit_part hv hc).mono (by omega) (Nat.le_refl _)).append (fit_dmv hd)))
theorem fit_vectors {fh fv : Nat} {select dual : Bool} (hh : fh ≤ 9) (hv : fv ≤ 9) {n : Nat} {l : List Bool}
    (h : VectorsWord fh fv select dual n l) : Fit 14 14 l := by
  induction h with
  | nil => exact .nil _
  | cons n b l m hb hl t ih =>
    exact (Fit.any (a := 14) 1 (by rw [hb]; split <;> omega) (by omega)).append ((fit_vector hh hv hl).append ih)
theorem fit_motion {e : PicEnv} {motion s : Nat} (h9 : ∀ t < 2, e.pce.fCode s t ≤ 9) {l : List Bool} (h : MotionWord e motion s l) :
    Fit 14 14 l := by
  obtain ⟨n, select, dual, _, h⟩ := h
  exact fit_vectors (h9 0 (by decide)) (h9 1 (by decide)) h

theorem fit_head {e : PicEnv} (hu : CodesUsed e) {t : MacroblockType} {l : List Bool} (h : HeadWord e t l) :
    Fit 14 14 l ∧ (t.intra = true → Fit 14 6 l) := by
  obtain ⟨k, v, t, addr, type, motion, dct, q, f, b, mark, hAddr, hType, hMotion, hDct, hQ, hF, hB, hMark⟩ := h
  have h0 := (fit_escapes k).append (fit_address hAddr)
  have ht := type_ok hType
  simp only [typeOK, Bool.and_eq_true, Bool.or_eq_true, Bool.not_eq_true'] at ht
  have u := type_uses hType
  have hm2 : motion.length ≤ 2 := by rw [hMotion]; split <;> omega
  have hd1 : dct.length ≤ 1 := by rw [hDct]; split <;> omega
  have hq5 : q.length ≤ 5 := by rw [hQ]; split <;> omega
  have hf : Fit 14 14 f := by
    split at hF
    · rename_i hc
      refine fit_motion (hu.forward ?_) hF
      cases hfw : t.forward with
      | true => exact .inl (u.1 hfw)
      | false =>
        rw [hfw, Bool.false_or] at hc
        unfold conceals at hc
        exact .inr (Bool.and_eq_true_iff.mp hc).2
    · subst hF; exact .nil _
  have hb : Fit 14 14 b := by
    split at hB
    · rename_i hc; exact fit_motion (hu.backward (u.2 hc)) hB
    · subst hB; exact .nil _
  have hmk : Fit 14 14 mark := by
    rw [hMark]; split
    · exact .of_fits (by decide +kernel)
    · exact .nil _
  have assoc : escapes k ++ (addr ++ (type ++ (motion ++ (dct ++ (q ++ (f ++ (b ++ mark))))))) =
      (escapes k ++ addr) ++ (type ++ (motion ++ (dct ++ (q ++ (f ++ (b ++ mark)))))) := by simp [List.append_assoc]
  rw [assoc]
  constructor
  · refine h0.append ((Fit.of_fits ht.1).append ((Fit.any 2 hm2 (by omega)).append ((Fit.any 1 hd1 (by omega)).append
      ((Fit.any 5 hq5 (by omega)).append ((hf.append (hb.append hmk)).mono (by omega) (Nat.le_refl _))))))
  · intro hi
    rw [hi] at ht
    obtain ⟨⟨t0, nf⟩, nb⟩ := ht.2.resolve_left (by simp)
    have hm0 : motion.length ≤ 0 := by rw [hMotion, nf, nb]; simp
    refine h0.append ((Fit.of_fits t0).append ((Fit.any 0 hm0 (by omega)).append ((Fit.any 1 hd1 (by omega)).append
      ((Fit.any (a := 1) 5 hq5 (by omega)).append ?_))))
    by_cases hc : conceals e t = true
    · rw [hMark, if_pos hc]
      refine ((hf.append (hb.append (c := 6) ?_)).mono (by omega) (Nat.le_refl _))
      exact .of_fits (by decide +kernel)
    · rw [hMark, if_neg hc]
      rw [nf, Bool.false_or, if_neg hc] at hF
      rw [nb, if_neg (by decide)] at hB
      subst hF hB
      exact .nil _

theorem natOfBits_false : ∀ {l : List Bool}, true ∉ l → natOfBits l = 0
  | [], _ => rfl
  | true :: l, h => by simp at h
  | false :: l, h => by
    have := natOfBits_append [false] l
    rw [List.singleton_append] at this
    rw [this, natOfBits_false (l := l) (fun hm => h (List.mem_cons_of_mem _ hm))]
    simp [natOfBits]

theorem fit_event {one first : Bool} {run : Nat} {level : Int} {c : List Bool} (h : EventCode one first run level c) (h0 : level ≠ 0) :
    Fit 11 11 c := by
  have all : ∀ {c : List Bool} {v : DctSym}, (c, v) ∈ isoCoef one first → Fit 11 10 c ∧ (v = .escape → Fit 11 0 c) := by
    intro c v h
    unfold isoCoef at h
    have key : ∀ T : List (List Bool × DctSym), (T.all fun x => fits 11 10 x.1 && (x.2 != .escape || fits 11 0 x.1)) = true → (c, v) ∈ T →
        Fit 11 10 c ∧ (v = .escape → Fit 11 0 c) := by
      intro T hT hm
      have := List.all_eq_true.mp hT _ hm
      simp only [Bool.and_eq_true, Bool.or_eq_true] at this
      refine ⟨.of_fits this.1, fun hv => .of_fits (this.2.resolve_left ?_)⟩
      subst hv; decide
    split at h
    · exact key _ (by decide +kernel) h
    · split at h
      · exact key _ (by decide +kernel) h
      · exact key _ (by decide +kernel) h
  cases h with
  | vlc c h hl => exact (all h).1.append (Fit.any 1 (by simp) (by omega))
  | escape c h hr hl =>
    refine (((all h).2 rfl).append (Fit.any 6 (by simp) (by omega))).append (Fit.one 11 ?_ (by simp) (by omega))
    refine Classical.byContradiction fun hn => ?_
    have := natOfBits_false hn
    rw [natOfBits_bitsOf_of_lt (by split <;> omega)] at this
    split at this <;> omega

theorem fit_events {one first : Bool} {evs : List (Nat × Int)} {l : List Bool} (h : CodedEvents one first evs l)
    (h0 : ∀ ev ∈ evs, ev.2 ≠ 0) : Fit 11 11 l := by
  induction h with
  | nil first => exact .nil _
  | cons first run level evs c l h t ih =>
    exact (fit_event h (h0 _ List.mem_cons_self)).append (ih fun ev hev => h0 ev (List.mem_cons_of_mem _ hev))

theorem fit_eob {one first : Bool} {c : List Bool} (h : (c, DctSym.eob) ∈ isoCoef one first) : Fit 11 1 c := by
  have key : ∀ T : List (List Bool × DctSym), (T.all fun x => x.2 != .eob || fits 11 1 x.1) = true → (c, DctSym.eob) ∈ T → Fit 11 1 c := by
    intro T hT hm
    have := List.all_eq_true.mp hT _ hm
    simp only [Bool.or_eq_true] at this
    exact .of_fits (this.resolve_left (by decide))
  unfold isoCoef at h
  split at h
  · exact key _ (by decide +kernel) h
  · split at h
    · exact key _ (by decide +kernel) h
    · exact key _ (by decide +kernel) h

theorem fit_dc {cc n : Nat} {z d : List Bool} (h : (z, n) ∈ isoDc cc) (hd : d.length = n) : Fit 6 11 (z ++ d) := by
  have key : ∀ T : List (List Bool × Nat), (T.all fun x => decide (x.2 ≤ 11) && fits 6 (11 - x.2) x.1) = true → (z, n) ∈ T →
      Fit 6 11 (z ++ d) := by
    intro T hT hm
    have := List.all_eq_true.mp hT _ hm
    simp only [Bool.and_eq_true, decide_eq_true_eq] at this
    exact (Fit.of_fits this.2).append ((Fit.any (a := 11 - n) n (by omega) (by omega)).mono (Nat.le_refl _) (by omega))
  unfold isoDc at h
  split at h
  · exact key _ (by decide +kernel) h
  · exact key _ (by decide +kernel) h

theorem fit_block {intra : Bool} {format cc : Nat} {l : List Bool} (h : CleanBlock intra format cc l) :
    Fit (if intra then 6 else 11) 1 l := by
  cases h with
  | nonintra evs l c hi hev hl hn hc h64 =>
    subst hi
    exact (fit_events hl hn).append (fit_eob (one := false) (first := false) hc)
  | intra n z d evs l c hi hz hd hl hn hc h64 =>
    subst hi
    exact (fit_dc hz hd).append ((fit_events hl hn).append (fit_eob hc))

theorem fit_blocks {intra : Bool} {format : Nat} {coded : Nat → Bool} {k i : Nat} {l : List Bool}
    (h : CleanBlocks intra format coded k i l) : Fit (if intra then 6 else 11) (if intra then 6 else 11) l := by
  induction h with
  | nil i => exact .nil _
  | coded k i l m hi h t ih => exact ((fit_block h).mono (Nat.le_refl _) (by split <;> omega)).append ih
  | uncoded k i m hi t ih => exact ih
theorem no_blocks {intra : Bool} {format : Nat} {coded : Nat → Bool} {k i : Nat} {l : List Bool}
    (h : CleanBlocks intra format coded k i l) (hc : ∀ i, coded i = false) : l = [] := by
  induction h with
  | nil i => rfl
  | coded k i l m hi h t ih => rw [hc i] at hi; cases hi
  | uncoded k i m hi t ih => exact ih

theorem fit_pattern {c : List Bool} {v : Nat} (h : (c, v) ∈ isoCbp) : Fit 14 4 c := fit_table (by decide +kernel) h

theorem fit_mb {e : PicEnv} (hu : CodesUsed e) {l : List Bool} (h : CleanMb e l) : Fit 14 14 l := by
  obtain ⟨t, head, pat, blocks, cbp, h, hPat, hBlocks⟩ := h
  obtain ⟨h1, h2⟩ := fit_head hu h
  have hb := fit_blocks hBlocks
  cases hi : t.intra with
  | true =>
    rw [hi, if_pos rfl] at hb
    refine (h2 hi).append (Fit.append (b := 6) ?_ (hb.mono (Nat.le_refl _) (by omega)))
    split at hPat
    · exact (fit_pattern hPat).mono (by omega) (by omega)
    · subst hPat; exact .nil _
  | false =>
    rw [hi, if_neg (by decide)] at hb
    cases hp : t.pattern with
    | true =>
      rw [if_pos hp] at hPat
      exact h1.append (((fit_pattern hPat).mono (Nat.le_refl _) (by omega)).append (hb.mono (Nat.le_refl _) (by omega)))
    | false =>
      rw [if_neg (by rw [hp]; decide)] at hPat
      subst hPat
      rw [no_blocks hBlocks (fun i => by simp [hi, hp])]
      exact h1.append (.nil _)

theorem fit_mbs {e : PicEnv} (hu : CodesUsed e) {l : List Bool} (h : Many (CleanMb e) l) : Fit 14 14 l := by
  induction h with
  | one l h => exact fit_mb hu h
  | cons l m h t ih => exact (fit_mb hu h).append ih

theorem fit_extra : ∀ xs : List Nat, Fit 8 9 (encExtra xs)
  | [] => .of_fits (by decide +kernel)
  | x :: xs => by
    have : encExtra (x :: xs) = (true :: bitsOf 8 x) ++ encExtra xs := by simp [encExtra]
    rw [this]
    exact (Fit.one (w := true :: bitsOf 8 x) 8 List.mem_cons_self (by simp) (by omega)).append (fit_extra xs)
theorem fit_info (info : Option (Bool × List Nat)) : Fit 12 13 (infoBits info) := by
  cases info with
  | none => exact .of_fits (by decide +kernel)
  | some i =>
    obtain ⟨b, xs⟩ := i
    have : infoBits (some (b, xs)) = ([true, b] ++ bitsOf 7 0) ++ encExtra xs := rfl
    rw [this]
    refine Fit.append (b := 8) ?_ ((fit_extra xs).mono (Nat.le_refl _) (by omega))
    cases b <;> exact .of_fits (by decide +kernel)

/-- What follows the start code prefix of a slice. -/
theorem fit_slice {e : PicEnv} (hu : CodesUsed e) {l : List Bool} (h : CleanSlice e l) :
    ∃ row w, row < 175 ∧ l = prefix1 ++ (bitsOf 8 (1 + row) ++ w) ∧ Fit 0 14 (bitsOf 8 (1 + row) ++ w) := by
  obtain ⟨row, ext, q, mbs, info, hRow, hExt, hQ, hQ0, hInfo, hMbs⟩ := h
  refine ⟨row, ext ++ (q ++ (infoBits info ++ mbs)), hRow, ?_, ?_⟩
  · have e1 : bitsOf 32 (0x101 + row) = bitsOf 24 ((0x101 + row) / 2 ^ 8) ++ bitsOf 8 (0x101 + row) := bitsOf_append 24 8 _
    rw [e1, show (0x101 + row) / 2 ^ 8 = 1 by omega, List.append_assoc]
    have e2 : bitsOf 8 (0x101 + row) = bitsOf 8 (1 + row) := by
      rw [← bitsOf_mod 8 (0x101 + row) 8 (Nat.le_refl _), ← bitsOf_mod 8 (1 + row) 8 (Nat.le_refl _)]
      congr 1; omega
    rw [e2]; rfl
  · have hr : true ∈ bitsOf 8 (1 + row) := by
      refine Classical.byContradiction fun hn => ?_
      have := natOfBits_false hn
      rw [natOfBits_bitsOf_of_lt (by omega)] at this
      omega
    have hq : Fit 7 12 (ext ++ q) := by
      by_cases hv : 2800 < e.sh.verticalSizeValue
      · rw [if_pos hv] at hExt
        exact (Fit.any 3 (by omega) (by omega)).append ((Fit.one 4 (hQ0 hv) (by omega) (by omega)).mono (Nat.le_refl _) (by omega))
      · rw [if_neg hv] at hExt
        exact (Fit.any 0 (by omega) (by omega)).append (Fit.any 5 (by omega) (by omega))
    rw [← List.append_assoc ext]
    exact (Fit.one 7 hr (by simp) (by omega)).append (hq.append ((fit_info info).append ((fit_mbs hu hMbs).mono (by omega) (Nat.le_refl _))))

/-! ### where start code prefixes are -/

theorem zeros_true {n : Nat} {a b c : List Bool} (h : zeros n ++ c = a ++ true :: b) : n ≤ a.length := by
  refine Classical.byContradiction fun hn => ?_
  have h1 := congrArg (fun l => l[a.length]?) h
  simp only [zeros] at h1
  rw [List.getElem?_append_left (by simp; omega), List.getElem?_append_right (Nat.le_refl _), Nat.sub_self] at h1
  rw [List.getElem?_replicate, if_pos (by omega)] at h1
  simp at h1

/-- Behind a string without 23 zeros in a row and any number of zeros, the first start code prefix is the next one. -/
theorem first_prefix {a b n : Nat} {w x y r : List Bool} (h : Fit a b w)
    (e : w ++ (zeros n ++ (prefix1 ++ r)) = x ++ (prefix1 ++ y)) : w.length + n ≤ x.length := by
  have e' : w ++ (zeros (n + 23) ++ (true :: r)) = (x ++ zeros 23) ++ true :: y := by
    have : zeros (n + 23) = zeros n ++ zeros 23 := (List.replicate_append_replicate).symm
    rw [this]
    simpa [prefix1, List.append_assoc] using e
  have hz : (x ++ zeros 23).length = x.length + 23 := by simp [zeros]
  rcases List.append_eq_append_iff.mp e' with ⟨v, h1, h2⟩ | ⟨v, h1, h2⟩
  · have h3 := zeros_true h2
    have h4 := congrArg List.length h1
    rw [hz, List.length_append] at h4
    omega
  · cases v with
    | nil =>
      rw [List.append_nil] at h1
      have h2' : zeros (n + 23) ++ true :: r = [] ++ true :: y := h2.symm
      have := zeros_true h2'
      simp at this
    | cons b v =>
      rw [List.cons_append] at h2
      injection h2 with h3 h4
      subst h3
      exact absurd (show w = x ++ (prefix1 ++ v) by rw [h1]; simp [prefix1, List.append_assoc]) h.no_prefix

/-- **C146**, a slice: behind its start code, at whatever bit position, there is no start code prefix before the one that follows
the slice and its stuffing. -/
theorem C146_slice {e : PicEnv} (hu : CodesUsed e) {l : List Bool} (h : CleanSlice e l) (n : Nat) (x y r : List Bool)
    (hx : l ++ (zeros n ++ (prefix1 ++ r)) = x ++ (prefix1 ++ y)) : x = [] ∨ l.length + n ≤ x.length := by
  obtain ⟨row, w, hrow, rfl, hw⟩ := fit_slice hu h
  rw [List.append_assoc] at hx
  generalize bitsOf 8 (1 + row) ++ w = v at hx hw ⊢
  have hx' : zeros 23 ++ (true :: (v ++ (zeros n ++ (prefix1 ++ r)))) = (x ++ zeros 23) ++ true :: y := by
    simpa [prefix1, List.append_assoc] using hx
  by_cases h0 : x = []
  · exact .inl h0
  · right
    have hp : 0 < x.length := List.length_pos_iff.mpr h0
    -- the prefix begins behind the first one
    have hx24 : 24 ≤ x.length := by
      refine Classical.byContradiction fun hn => ?_
      have h1 := congrArg (fun l => l[23]?) hx'
      have hz : (x ++ zeros 23).length = x.length + 23 := by simp [zeros]
      rw [List.getElem?_append_right (by simp [zeros]), List.getElem?_append_left (by omega),
        List.getElem?_append_right (by omega)] at h1
      simp only [zeros, List.length_replicate, Nat.sub_self, List.getElem?_cons_zero] at h1
      rw [List.getElem?_replicate, if_pos (by omega)] at h1
      simp at h1
    have hx2 : prefix1 ++ (v ++ (zeros n ++ (prefix1 ++ r))) = x.take 24 ++ (x.drop 24 ++ (prefix1 ++ y)) := by
      rw [← List.append_assoc (x.take 24), List.take_append_drop]; exact hx
    have h3 := (List.append_inj hx2 (by simp [prefix1, zeros]; omega)).2
    have := first_prefix hw h3
    simp only [List.length_append, List.length_drop] at this ⊢
    have : prefix1.length = 24 := rfl
    omega

/-- **C146**, the slices of a picture: a start code prefix in the slices of a picture, at whatever bit position, is at the beginning of
one of the slices. -/
theorem C146_slices {e : PicEnv} (hu : CodesUsed e) {l : List Bool} (h : CleanSlices e l) (x y r : List Bool)
    (hx : l ++ (prefix1 ++ r) = x ++ (prefix1 ++ y)) (hl : x.length < l.length) :
    ∃ sl m, CleanSlices e x ∧ CleanSlice e sl ∧ CleanSlices e m ∧ ∃ k, l = x ++ (sl ++ (zeros k ++ m)) := by
  induction h generalizing x with
  | nil => simp at hl
  | cons k l m h t ih =>
    -- what follows the slice begins with a prefix
    obtain ⟨r', hr'⟩ : ∃ r', m ++ (prefix1 ++ r) = prefix1 ++ r' := by
      cases t with
      | nil => exact ⟨r, rfl⟩
      | cons k l m h t =>
        obtain ⟨row, w, -, rfl, -⟩ := fit_slice hu h
        exact ⟨(bitsOf 8 (1 + row) ++ w) ++ (zeros k ++ m) ++ (prefix1 ++ r), by simp [List.append_assoc]⟩
    have hx' : l ++ (zeros k ++ (prefix1 ++ r')) = x ++ (prefix1 ++ y) := by
      rw [← hr', ← hx]; simp [List.append_assoc]
    rcases C146_slice hu h k x y r' hx' with rfl | hge
    · exact ⟨l, m, .nil, h, t, k, rfl⟩
    · have hx2 : (l ++ zeros k) ++ (m ++ (prefix1 ++ r)) = x.take (l.length + k) ++ (x.drop (l.length + k) ++ (prefix1 ++ y)) := by
        rw [← List.append_assoc (x.take _), List.take_append_drop, ← hx]; simp [List.append_assoc]
      obtain ⟨h1, h2⟩ := List.append_inj hx2 (by simp [zeros]; omega)
      have hzl : (zeros k).length = k := by simp [zeros]
      obtain ⟨sl, m', c1, c2, c3, k', h3⟩ := ih _ h2 (by
        simp only [List.length_append, List.length_drop, hzl] at hl ⊢; omega)
      refine ⟨sl, m', ?_, c2, c3, k', ?_⟩
      · rw [← List.take_append_drop (l.length + k) x, ← h1, List.append_assoc]
        exact .cons k l _ h c1
      · have : x = (l ++ zeros k) ++ x.drop (l.length + k) := by rw [h1, List.take_append_drop]
        rw [this, List.append_assoc, ← h3, List.append_assoc]

theorem bits_code {n : Nat} (hn : n < 256) : bitsOf 32 (0x100 + n) = prefix1 ++ bitsOf 8 n := by
  have e1 : bitsOf 32 (0x100 + n) = bitsOf 24 ((0x100 + n) / 2 ^ 8) ++ bitsOf 8 (0x100 + n) := bitsOf_append 24 8 _
  rw [e1, show (0x100 + n) / 2 ^ 8 = 1 by omega]
  have e2 : bitsOf 8 (0x100 + n) = bitsOf 8 n := by
    rw [← bitsOf_mod 8 (0x100 + n) 8 (Nat.le_refl _), ← bitsOf_mod 8 n 8 (Nat.le_refl _)]
    congr 1; omega
  rw [e2]; rfl

/-- **C146**, `AlignTo`: from any byte position in the slices of a picture, also inside a slice, `AlignTo` with the start code that
follows the picture (one that is not of a slice) stops exactly at that start code. -/
theorem C146_alignTo {e : PicEnv} (hu : CodesUsed e) {p m r : List Bool} (h : CleanSlices e (p ++ m)) {n : Nat} (hn : n < 256)
    (hns : n = 0 ∨ 0xB0 ≤ n) (s : BR) (hb : fromBoundary s = m ++ (bitsOf 32 (0x100 + n) ++ r)) (h8 : m.length % 8 = 0) :
    alignTo (0x100 + n) s = (.ok (), ⟨bitsOf 32 (0x100 + n) ++ r, s.pos + padding s.pos + m.length, s.stop, s.later⟩) := by
  have hno : ∀ j, 8 * j < m.length → ((fromBoundary s).drop (8 * j)).take 32 ≠ bitsOf 32 (0x100 + n) := by
    intro j hj hc
    have e0 : (fromBoundary s) = m.take (8 * j) ++ (bitsOf 32 (0x100 + n) ++ ((fromBoundary s).drop (8 * j)).drop 32) := by
      rw [← hc, List.take_append_drop]
      have : m.take (8 * j) = (fromBoundary s).take (8 * j) := by rw [hb, List.take_append_of_le_length (by omega)]
      rw [this, List.take_append_drop]
    obtain ⟨sl, m', c1, c2, c3, k, h3⟩ := C146_slices hu h (p ++ m.take (8 * j)) (bitsOf 8 n ++ ((fromBoundary s).drop (8 * j)).drop 32)
      (bitsOf 8 n ++ r) (by
        rw [bits_code hn] at hb e0
        have := hb.symm.trans e0
        simp only [List.append_assoc] at this ⊢
        rw [this]) (by rw [List.length_append, List.length_append, List.length_take]; omega)
    obtain ⟨row, w, hrow, rfl, -⟩ := fit_slice hu c2
    have h4 : (p ++ m) ++ (bitsOf 32 (0x100 + n) ++ r) =
        (p ++ m.take (8 * j)) ++ (bitsOf 32 (0x100 + n) ++ ((fromBoundary s).drop (8 * j)).drop 32) := by
      rw [List.append_assoc, ← hb, List.append_assoc, ← e0]
    rw [h3, List.append_assoc] at h4
    have h5 := List.append_cancel_left h4
    rw [bits_code hn] at h5
    simp only [List.append_assoc] at h5
    have h6 := List.append_cancel_left h5
    have h7 := congrArg natOfBits (List.append_inj h6 (by simp)).1
    rw [natOfBits_bitsOf_of_lt (by omega), natOfBits_bitsOf_of_lt (by omega)] at h7
    omega
  obtain ⟨q, hq⟩ : ∃ q, m.length = 8 * q := ⟨m.length / 8, by omega⟩
  have hat : ((fromBoundary s).drop (8 * q)).take 32 = bitsOf 32 (0x100 + n) := by
    rw [hb, List.drop_left' hq, List.take_left' (length_bitsOf ..)]
  rcases C35 (0x100 + n) (by omega) s with ⟨j, m1, m2, m3⟩ | ⟨m1, _⟩
  · have hmq : j = q := by
      rcases Nat.lt_trichotomy j q with hlt | heq | hgt
      · exact absurd m2 (hno j (by omega))
      · exact heq
      · exact absurd hat (m3 q hgt)
    rw [m1, hmq, hb, List.drop_left' hq, hq]
  · exact absurd hat (m1 q)

/-! ### the language -/

/-- The slices considered are slices of the syntax that the decoder accepts (C97). -/
theorem clean_word {e : PicEnv} {l : List Bool} (h : CleanSlice e l) : SliceWord e (MbWord e) l := by
  obtain ⟨row, ext, q, mbs, info, hRow, hExt, hQ, hQ0, hInfo, hMbs⟩ := h
  refine .mk row ext q mbs info hRow hExt hQ hInfo ?_
  have blk : ∀ {intra : Bool} {format cc : Nat} {l : List Bool}, CleanBlock intra format cc l → BlockWord intra format cc l := by
    intro intra format cc l h
    cases h with
    | nonintra evs l c hi hev hl hn hc h64 => exact .nonintra evs l c hi hev hl hc h64
    | intra n z d evs l c hi hz hd hl hn hc h64 => exact .intra n z d evs l c hi hz hd hl hc h64
  have blks : ∀ {intra : Bool} {format : Nat} {coded : Nat → Bool} {k i : Nat} {l : List Bool}, CleanBlocks intra format coded k i l →
      BlocksWord intra format coded k i l := by
    intro intra format coded k i l h
    induction h with
    | nil i => exact .nil i
    | coded k i l m hi h t ih => exact .coded k i l m hi (blk h) ih
    | uncoded k i m hi t ih => exact .uncoded k i m hi ih
  have mb : ∀ {l : List Bool}, CleanMb e l → MbWord e l := by
    rintro l ⟨t, head, pat, blocks, cbp, h, hPat, hBlocks⟩
    exact .mk t head pat blocks cbp h hPat (blks hBlocks)
  induction hMbs with
  | one l h => exact .one l (mb h)
  | cons l m h t ih => exact .cons l m (mb h) ih

/-! ### concrete cases -/

namespace CleanEx
open SynEx

theorem used (t : Nat) (ht : t ≠ 3) : CodesUsed (e t) where
  forward := fun _ u hu => by
    rcases (show u = 0 ∨ u = 1 by omega) with rfl | rfl <;> (show pce.fCode _ _ ≤ 9; decide)
  backward := fun h => absurd h ht

theorem cleanY (i : Nat) (hi : blockComp i = 0) : CleanBlock true 0 (blockComp i) blkY := by
  rw [hi]
  exact .intra 2 _ _ [(1, -1)] _ _ rfl (by decide +kernel) rfl
    (.cons _ _ _ _ _ _ (.vlc [false, true, true] (by decide +kernel) (by decide)) (.nil _)) (by simp) (by decide +kernel) (by decide)
theorem cleanC (i : Nat) (hi : blockComp i ≠ 0) : CleanBlock true 0 (blockComp i) blkC := by
  refine .intra 0 _ _ [] _ _ rfl ?_ rfl (.nil _) (by simp) (by decide +kernel) (by decide)
  unfold isoDc
  rw [if_neg hi]
  decide +kernel
theorem cleanMb : CleanMb (e 1) mbI := by
  refine .mk ⟨false, false, false, false, true⟩ _ [] _ 0
    (.mk 0 1 _ [true] [true] [] [] [] [] [] [] (by decide +kernel) (by decide +kernel) rfl rfl rfl rfl rfl rfl) rfl ?_
  exact .coded _ _ _ _ rfl (cleanY 0 rfl) <| .coded _ _ _ _ rfl (cleanY 1 rfl) <| .coded _ _ _ _ rfl (cleanY 2 rfl) <|
    .coded _ _ _ _ rfl (cleanY 3 rfl) <| .coded _ _ _ _ rfl (cleanC 4 (by decide)) <|
    .coded _ _ _ _ rfl (cleanC 5 (by decide)) <| .nil _
theorem cleanSl : CleanSlice (e 1) slI :=
  .mk 0 [] (bitsOf 5 8) mbI (some (false, [7])) (by decide) rfl (length_bitsOf ..) (fun _ => by decide)
    (fun i hi => by cases hi; decide) (.one _ cleanMb)

/-- The hypotheses of `C146_alignTo` are met in the middle of a slice (from its third byte on, so the reader stands behind the first
two bytes of the start code of the slice). -/
example (r : List Bool) : alignTo (0x100 + 0xB8) ⟨(slI ++ (zeros (8 - slI.length % 8) ++ [])).drop 16 ++ (bitsOf 32 (0x100 + 0xB8) ++ r), 16, .eof, []⟩ =
    (.ok (), ⟨bitsOf 32 (0x100 + 0xB8) ++ r, 16 + padding 16 + ((slI ++ (zeros (8 - slI.length % 8) ++ [])).drop 16).length, .eof, []⟩) :=
  C146_alignTo (used 1 (by decide)) (p := (slI ++ (zeros (8 - slI.length % 8) ++ [])).take 16)
    (by rw [List.take_append_drop]; exact .cons _ _ _ cleanSl .nil) (by decide) (.inr (by decide)) _
    (by simp [fromBoundary, padding]) (by decide +kernel)

/-- A luminance block with an escape code of level 0, which the standard forbids, followed by a code that begins with eleven zeros. -/
def blkE : List Bool := [true, false, false] ++ [] ++
  ((([true, true] ++ [false]) ++ (([true, true] ++ [false]) ++ (([true, true] ++ [false]) ++
    (([false, false, false, false, false, true] ++ bitsOf 6 0 ++ bitsOf 12 0) ++ ((bitsOf 16 27 ++ [true]) ++
      ((bitsOf 6 7 ++ [false]) ++ [])))))) ++ [true, false])
theorem wordE : BlockWord true 0 (blockComp 0) blkE := by
  refine .intra 0 _ _ [(0, 1), (0, 1), (0, 1), (0, 0), (31, -1), (5, 1)] _ _ rfl (by decide +kernel) rfl ?_ (by decide +kernel) (by decide)
  refine .cons _ _ _ _ _ _ (.vlc [true, true] (by decide +kernel) (by decide)) ?_
  refine .cons _ _ _ _ _ _ (.vlc [true, true] (by decide +kernel) (by decide)) ?_
  refine .cons _ _ _ _ _ _ (.vlc [true, true] (by decide +kernel) (by decide)) ?_
  refine .cons _ _ _ _ _ _ (.escape [false, false, false, false, false, true] (by decide +kernel) (by decide) (by decide)) ?_
  refine .cons _ _ _ _ _ _ (.vlc (bitsOf 16 27) (by decide +kernel) (by decide)) ?_
  exact .cons _ _ _ _ _ _ (.vlc (bitsOf 6 7) (by decide +kernel) (by decide)) (.nil _)
def mbE : List Bool :=
  escapes 0 ++ ([true] ++ ([true] ++ ([] ++ ([] ++ ([] ++ ([] ++ ([] ++ []))))))) ++
    ([] ++ (blkE ++ (blkY ++ (blkY ++ (blkY ++ (blkC ++ (blkC ++ [])))))))
def slE : List Bool := bitsOf 32 (0x101 + 0) ++ ([] ++ (bitsOf 5 8 ++ (infoBits none ++ mbE)))
theorem wordSl : SliceWord (e 1) (MbWord (e 1)) slE := by
  refine .mk 0 [] (bitsOf 5 8) mbE none (by decide) rfl (length_bitsOf ..) (fun i hi => by cases hi) (.one _ ?_)
  refine .mk ⟨false, false, false, false, true⟩ _ [] _ 0
    (.mk 0 1 _ [true] [true] [] [] [] [] [] [] (by decide +kernel) (by decide +kernel) rfl rfl rfl rfl rfl rfl) rfl ?_
  exact .coded _ _ _ _ rfl wordE <| .coded _ _ _ _ rfl (wordY 1 rfl) <| .coded _ _ _ _ rfl (wordY 2 rfl) <|
    .coded _ _ _ _ rfl (wordY 3 rfl) <| .coded _ _ _ _ rfl (wordC 4 (by decide)) <|
    .coded _ _ _ _ rfl (wordC 5 (by decide)) <| .nil _
/-- the slice, padding and the start code of a group of pictures -/
def bitsE : List Bool := slE ++ (zeros (padding slE.length) ++ (prefix1 ++ bitsOf 8 0xB8))
end CleanEx

open SynEx CleanEx in
/-- **C146** is false for all slices that the decoder accepts: a slice with an escape code of level 0 is decoded without error, but
contains the start code of a group of pictures, at which `AlignTo` stops. -/
theorem C146_level_false : ∃ l b, SliceWord (e 1) (MbWord (e 1)) l ∧ b = l ++ (zeros (padding l.length) ++ (prefix1 ++ bitsOf 8 0xB8)) ∧
    (match pictureData (vs 1 b) with
      | (.ok _, s') => s'.br.bits == prefix1 ++ bitsOf 8 0xB8
      | _ => false) = true ∧
    (alignTo 0x1B8 ⟨b, 0, .eof, []⟩).1 = .ok () ∧ (alignTo 0x1B8 ⟨b, 0, .eof, []⟩).2.pos = 64 ∧ 64 < l.length :=
  ⟨slE, bitsE, wordSl, rfl, by decide +kernel, by decide +kernel, by decide +kernel, by decide +kernel⟩

namespace CleanEx
open SynEx
/-- a picture with 3000 lines -/
def tall : PicEnv := { e 1 with sh := { sh with verticalSizeValue := 3000 } }
def mbT : List Bool :=
  escapes 1 ++ ([true] ++ ([true] ++ ([] ++ ([] ++ ([] ++ ([] ++ ([] ++ []))))))) ++
    ([] ++ (blkY ++ (blkY ++ (blkY ++ (blkY ++ (blkC ++ (blkC ++ [])))))))
/-- a slice in the row of macroblocks 127 with quantiser_scale_code 0 -/
def slT : List Bool := bitsOf 32 (0x101 + 127) ++ (zeros 3 ++ (zeros 5 ++ (infoBits none ++ mbT)))
theorem wordT : SliceWord tall (MbWord tall) slT := by
  refine .mk 127 (zeros 3) (zeros 5) mbT none (by decide) rfl rfl (fun i hi => by cases hi) (.one _ ?_)
  refine .mk ⟨false, false, false, false, true⟩ _ [] _ 0
    (.mk 1 1 _ [true] [true] [] [] [] [] [] [] (by decide +kernel) (by decide +kernel) rfl rfl rfl rfl rfl rfl) rfl ?_
  exact .coded _ _ _ _ rfl (wordY 0 rfl) <| .coded _ _ _ _ rfl (wordY 1 rfl) <| .coded _ _ _ _ rfl (wordY 2 rfl) <|
    .coded _ _ _ _ rfl (wordY 3 rfl) <| .coded _ _ _ _ rfl (wordC 4 (by decide)) <|
    .coded _ _ _ _ rfl (wordC 5 (by decide)) <| .nil _
end CleanEx

open CleanEx in
/-- **C146**: the condition on quantiser_scale_code is necessary in pictures with more than 2800 lines: with code 0, which the syntax
and the decoder accept, a start code prefix appears inside a byte of the slice, although all levels are allowed ones. -/
theorem C146_scale_false : ∃ e l x y, CodesUsed e ∧ SliceWord e (MbWord e) l ∧ l = x ++ (prefix1 ++ y) ∧ x ≠ [] :=
  ⟨tall, slT, slT.take 25, slT.drop 49, ⟨fun h => by rcases h with h | h <;> exact absurd h (by decide), fun h => absurd h (by decide)⟩, wordT,
    by decide +kernel, by decide +kernel⟩

end Mpeg.Video
