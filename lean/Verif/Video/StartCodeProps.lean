/-
C147: nothing in a stream imitates a start code.
-/
import Verif.Video.StartCodeSpec
import Verif.Video.CleanProps
import Verif.Video.RecoverProps
import Verif.Video.ResyncProps
set_option linter.all false
namespace Mpeg.Video
open Spec

theorem true_mem_bitsOf {k v : Nat} (h0 : v ≠ 0) (h : v < 2 ^ k) : true ∈ bitsOf k v := by
  refine Classical.byContradiction fun hn => ?_
  have := natOfBits_false hn
  rw [natOfBits_bitsOf_of_lt h] at this
  omega

/-- A field that is not 0. -/
theorem Fit.field {a k v : Nat} (h0 : v ≠ 0) (h : v < 2 ^ (k + 1)) (ha : a + k ≤ 22) : Fit a k (bitsOf (k + 1) v) :=
  Fit.one k (true_mem_bitsOf h0 h) (by simp) ha
/-- Any field. -/
theorem Fit.bits {a : Nat} (k v : Nat) (ha : a + k ≤ 22) : Fit a (a + k) (bitsOf k v) := Fit.any k (by simp) ha
theorem Fit.bit {a : Nat} (b : Bool) (ha : a + 1 ≤ 22) : Fit a (a + 1) [b] := Fit.any 1 (by simp) ha
theorem Fit.mark {a : Nat} : Fit a 0 [true] := fun t ht => ⟨0, Nat.le_refl _, rfl⟩

theorem NoRun.fit {w : List Bool} (h : NoRun w) : Fit 0 22 w := by
  suffices hs : ∀ (w p : List Bool) (t : Nat), t ≤ 22 → NoRun (p ++ (zeros t ++ w)) → ∃ u ≤ 22, zeroRun t w = some u by
    intro t ht
    obtain rfl : t = 0 := by omega
    exact hs w [] 0 (by omega) h
  intro w
  induction w with
  | nil => exact fun p t ht _ => ⟨t, ht, rfl⟩
  | cons b w ih =>
    intro p t ht hr
    cases b with
    | true => exact ih (p ++ (zeros t ++ [true])) 0 (by omega) (by simpa [zeros, List.append_assoc] using hr)
    | false =>
      have e : zeros t ++ false :: w = zeros (t + 1) ++ w := by
        have : zeros (t + 1) = zeros t ++ [false] := (List.replicate_append_replicate (n := t) (m := 1) (a := false)).symm
        rw [this]; simp
      rw [e] at hr
      simp only [zeroRun]
      by_cases h22 : t < 22
      · rw [if_pos h22]
        exact ih p (t + 1) (by omega) hr
      · obtain rfl : t = 22 := by omega
        exact absurd rfl (hr p w)

theorem no_run {a b : Nat} {w : List Bool} (h : Fit a b w) : NoRun w := fun x y e => by
  obtain ⟨u, _, h⟩ := h 0 (Nat.zero_le _)
  rw [e, zeroRun_append] at h
  cases hx : zeroRun 0 x with
  | none => rw [hx] at h; cases h
  | some v =>
    rw [hx] at h
    change zeroRun v (zeros 23 ++ y) = some u at h
    rw [zeroRun_append, zeroRun_zeros 23 v (by omega) (zeroRun_le x (Nat.zero_le _) hx)] at h
    cases h

theorem fit_mat : ∀ {m : Mat}, (∀ v ∈ m, v ≠ 0 ∧ v < 256) → Fit 8 8 (encMat m)
  | [], _ => Fit.nil 8
  | v :: m, h => by
    have : encMat (v :: m) = bitsOf 8 v ++ encMat m := by simp [encMat]
    rw [this]
    exact ((Fit.field (k := 7) (h v List.mem_cons_self).1 (h v List.mem_cons_self).2 (by omega)).append
      ((fit_mat fun x hx => h x (List.mem_cons_of_mem _ hx)).mono (by omega) (Nat.le_refl _)))
theorem fit_load {a : Nat} (ha : a ≤ 14) {m : Option Mat} (h : MatNZ m) : Fit a (max 8 (a + 1)) (encLoad m) := by
  cases m with
  | none => exact (Fit.bit false (by omega)).mono (Nat.le_refl _) (by omega)
  | some m =>
    exact (Fit.mark (a := a)).append (w := encMat m) ((fit_mat (h m rfl)).mono (by omega) (by omega))

theorem fit_pic {h : Pic} (hw : h.WF) (hk : h.kind.NZ) : Fit 0 22 (bitsOf 8 0 ++ (bitsOf 10 h.temporal ++ (bitsOf 3 h.kind.code ++
    (bitsOf 16 h.vbvDelay ++ (h.kind.enc ++ encExtra h.extra))))) := by
  obtain ⟨h1, h2, h3, h4⟩ := hw
  refine (Fit.bits 8 0 (by omega)).append ((Fit.bits 10 _ (by omega)).append ?_)
  cases hkind : h.kind with
  | other c =>
    rw [hkind] at hk h2
    exact (Fit.field (k := 2) hk h2.1 (by omega)).append ((Fit.bits 16 _ (by omega)).append
      (show Fit 18 22 ([] ++ encExtra h.extra) by
        cases h.extra with
        | nil => exact .of_fits (by decide +kernel)
        | cons x xs =>
          have : ([] : List Bool) ++ encExtra (x :: xs) = [true] ++ (bitsOf 8 x ++ encExtra xs) := by simp [encExtra]
          rw [this]
          exact Fit.mark.append ((Fit.bits 8 _ (by omega)).append ((fit_extra xs).mono (by omega) (by omega)))))
  | p x f =>
    rw [hkind] at hk h2
    exact (show Fit 18 1 (bitsOf 3 2) from .of_fits (by decide +kernel)).append ((Fit.bits 16 _ (by omega)).append
      (((Fit.bits 1 _ (by omega)).append (Fit.field (k := 2) hk h2.2 (by omega))).append ((fit_extra _).mono (by omega) (by omega))))
  | b x f y g =>
    rw [hkind] at hk h2
    exact (show Fit 18 0 (bitsOf 3 3) from .of_fits (by decide +kernel)).append ((Fit.bits 16 _ (by omega)).append
      (((((Fit.bits 1 _ (by omega)).append (Fit.field (k := 2) hk.1 h2.2.1 (by omega))).append (Fit.bits 1 _ (by omega))).append
        (Fit.field (k := 2) hk.2 h2.2.2.2 (by omega))).append ((fit_extra _).mono (by omega) (by omega))))

/-- What follows the start code prefix of an element. -/
theorem fit_element {n : Nat} {l : List Bool} (h : CleanElement n l) :
    n < 256 ∧ ∃ w, l = prefix1 ++ (bitsOf 8 n ++ w) ∧ Fit 0 22 (bitsOf 8 n ++ w) := by
  have h5 : Fit 0 1 (bitsOf 8 0xB5) := .of_fits (by decide +kernel)
  cases h with
  | slice e hu _ _ h hn hc =>
    obtain ⟨row, w, hrow, rfl, hw⟩ := fit_slice hu h
    rw [bits_code hn, ← List.append_assoc, List.take_left' (by simp [prefix1, zeros])] at hc
    rw [List.append_cancel_left hc] at hw ⊢
    exact ⟨hn, w, rfl, hw.mono (Nat.le_refl _) (by omega)⟩
  | picture h hw hk =>
    refine ⟨by omega, _, ?_, fit_pic hw hk⟩
    rw [encPic, show bitsOf 32 0x100 = prefix1 ++ bitsOf 8 0 from bits_code (n := 0) (by omega)]
    simp only [List.append_assoc]
  | pictureExt h hw hs =>
    obtain ⟨_, _, _, _, _, w6, _⟩ := hw
    refine ⟨by omega, ?w0, ?h0, ?g0⟩
    case h0 =>
      rw [encPicExt, show bitsOf 32 0x1B5 = prefix1 ++ bitsOf 8 0xB5 from bits_code (n := 0xB5) (by omega)]
      simp only [List.append_assoc]
      rfl
    · refine h5.append ((show Fit 1 3 (bitsOf 4 8) from .of_fits (by decide +kernel)).append ((Fit.bits 4 _ (by omega)).append
        ((Fit.bits 4 _ (by omega)).append ((Fit.bits 4 _ (by omega)).append ((Fit.bits 4 _ (by omega)).append
        ((Fit.bits 2 _ (by omega)).append ((Fit.field (k := 1) hs w6 (by omega)).append ((Fit.bit _ (by omega)).append
        ((Fit.bits 1 _ (by omega)).append ((Fit.bit _ (by omega)).append ((Fit.bits 1 _ (by omega)).append
        ((Fit.bits 1 _ (by omega)).append ((Fit.bits 1 _ (by omega)).append ((Fit.bit _ (by omega)).append
        ((Fit.bit _ (by omega)).append ((Fit.bit _ (by omega)).append ?_))))))))))))))))
      cases h.composite with
      | none => exact (Fit.bit false (by omega)).mono (Nat.le_refl _) (by omega)
      | some c =>
        exact (Fit.mark (a := 10)).append ((((((Fit.bit _ (by omega)).append (Fit.bits 3 _ (by omega))).append (Fit.bit _ (by omega))).append
          (Fit.bits 7 _ (by omega))).append (Fit.bits 8 _ (by omega))).mono (Nat.le_refl _) (by omega))
  | gop h hw hm =>
    refine ⟨by omega, ?w1, ?h1, ?g1⟩
    case h1 =>
      rw [encGOP, show bitsOf 32 0x1B8 = prefix1 ++ bitsOf 8 0xB8 from bits_code (n := 0xB8) (by omega), hm]
      simp only [List.append_assoc]
      rfl
    · exact ((show Fit 0 3 (bitsOf 8 0xB8) from .of_fits (by decide +kernel)).append ((Fit.bit _ (by omega)).append
        ((Fit.bits 5 _ (by omega)).append ((Fit.bits 6 _ (by omega)).append (Fit.mark.append ((Fit.bits 6 _ (by omega)).append
        ((Fit.bits 6 _ (by omega)).append ((Fit.bit _ (by omega)).append (Fit.bit _ (by omega)))))))))).mono (Nat.le_refl _) (by omega)
  | seq h hw z1 z2 z3 z4 z5 =>
    obtain ⟨w1, w2, w3, w4, _⟩ := hw
    refine ⟨by omega, ?w2, ?h2, ?g2⟩
    case h2 =>
      rw [encSeq, show bitsOf 32 0x1B3 = prefix1 ++ bitsOf 8 0xB3 from bits_code (n := 0xB3) (by omega)]
      simp only [List.append_assoc]
      rfl
    · exact ((show Fit 0 0 (bitsOf 8 0xB3) from .of_fits (by decide +kernel)).append ((Fit.field (k := 11) z1 w1 (by omega)).append
        ((Fit.field (k := 11) z2 w2 (by omega)).append ((Fit.bits 4 _ (by omega)).append ((Fit.field (k := 3) z3 w4 (by omega)).append
        ((Fit.bits 18 _ (by omega)).append (Fit.mark.append ((Fit.bits 10 _ (by omega)).append ((Fit.bit _ (by omega)).append
        ((fit_load (by omega) z4).append (fit_load (by omega) z5))))))))))).mono (Nat.le_refl _) (by omega)
  | seqExt h hw hc hm =>
    obtain ⟨_, _, w3, _⟩ := hw
    refine ⟨by omega, ?w3, ?h3, ?g3⟩
    case h3 =>
      rw [encSeqExt, show bitsOf 32 0x1B5 = prefix1 ++ bitsOf 8 0xB5 from bits_code (n := 0xB5) (by omega), hm]
      simp only [List.append_assoc]
      rfl
    · exact (h5.append ((show Fit 1 0 (bitsOf 4 1) from .of_fits (by decide +kernel)).append ((Fit.bits 8 _ (by omega)).append
        ((Fit.bits 1 _ (by omega)).append ((Fit.field (k := 1) hc w3 (by omega)).append ((Fit.bits 2 _ (by omega)).append
        ((Fit.bits 2 _ (by omega)).append ((Fit.bits 12 _ (by omega)).append (Fit.mark.append ((Fit.bits 8 _ (by omega)).append
        ((Fit.bits 1 _ (by omega)).append ((Fit.bits 2 _ (by omega)).append (Fit.bits 5 _ (by omega)))))))))))))).mono (Nat.le_refl _) (by omega)
  | display h hw hc =>
    obtain ⟨_, w2, _⟩ := hw
    refine ⟨by omega, ?w4, ?h4, ?g4⟩
    case h4 =>
      rw [encSeqDisp, show bitsOf 32 0x1B5 = prefix1 ++ bitsOf 8 0xB5 from bits_code (n := 0xB5) (by omega)]
      simp only [List.append_assoc]
      rfl
    · refine h5.append ((show Fit 1 1 (bitsOf 4 2) from .of_fits (by decide +kernel)).append ((Fit.bits 3 _ (by omega)).append
        (Fit.append (b := 8) ?_ (((Fit.bits 14 _ (by omega)).append (Fit.mark.append (Fit.bits 14 _ (by omega)))).mono (Nat.le_refl _) (by omega)))))
      cases hcol : h.colour with
      | none => exact (Fit.bit false (by omega)).mono (Nat.le_refl _) (by omega)
      | some c =>
        obtain ⟨a, b, c⟩ := c
        obtain ⟨x1, x2, x3⟩ := hc _ hcol
        obtain ⟨y1, y2, y3⟩ := w2 _ hcol
        exact (Fit.mark (a := 4)).append ((((Fit.field (k := 7) x1 y1 (by omega)).append (Fit.field (k := 7) x2 y2 (by omega))).append
          (Fit.field (k := 7) x3 y3 (by omega))).mono (Nat.le_refl _) (by omega))
  | quant h hw z1 z2 z3 z4 =>
    refine ⟨by omega, ?w5, ?h5, ?g5⟩
    case h5 =>
      rw [encQExt, show bitsOf 32 0x1B5 = prefix1 ++ bitsOf 8 0xB5 from bits_code (n := 0xB5) (by omega)]
      simp only [List.append_assoc]
      rfl
    · exact (h5.append ((show Fit 1 0 (bitsOf 4 3) from .of_fits (by decide +kernel)).append ((fit_load (by omega) z1).append
        ((fit_load (by omega) z2).append ((fit_load (by omega) z3).append (fit_load (by omega) z4)))))).mono (Nat.le_refl _) (by omega)
  | temporal h hw =>
    refine ⟨by omega, ?w6, ?h6, ?g6⟩
    case h6 =>
      rw [encTemp, show bitsOf 32 0x1B5 = prefix1 ++ bitsOf 8 0xB5 from bits_code (n := 0xB5) (by omega)]
      simp only [List.append_assoc]
      rfl
    · exact (h5.append ((show Fit 1 1 (bitsOf 4 10) from .of_fits (by decide +kernel)).append ((Fit.bits 2 _ (by omega)).append
        ((Fit.bits 10 _ (by omega)).append (Fit.mark.append (Fit.bits 10 _ (by omega))))))).mono (Nat.le_refl _) (by omega)
  | other _ hn w h =>
    exact ⟨hn, w, by rw [bits_code hn, List.append_assoc], NoRun.fit h⟩

/-- **C147**, an element: behind its start code, at whatever bit position, there is no start code prefix before the one that follows
the element and its stuffing. -/
theorem C147_element {n : Nat} {l : List Bool} (h : CleanElement n l) (k : Nat) (x y r : List Bool)
    (hx : l ++ (zeros k ++ (prefix1 ++ r)) = x ++ (prefix1 ++ y)) : x = [] ∨ l.length + k ≤ x.length := by
  obtain ⟨hn, w, rfl, hw⟩ := fit_element h
  rw [List.append_assoc] at hx
  generalize bitsOf 8 n ++ w = v at hx hw ⊢
  have hx' : zeros 23 ++ (true :: (v ++ (zeros k ++ (prefix1 ++ r)))) = (x ++ zeros 23) ++ true :: y := by
    simpa [prefix1, List.append_assoc] using hx
  by_cases h0 : x = []
  · exact .inl h0
  · right
    have hp : 0 < x.length := List.length_pos_iff.mpr h0
    -- the prefix begins behind the first one
    have hx24 : 24 ≤ x.length := by
      refine Classical.byContradiction fun hn => ?_
      have h1 := congrArg (fun l => l[23]?) hx'
      have hz : (x ++ zeros 23).length = x.length + 23 := by simp [zeros]
      rw [List.getElem?_append_right (by simp [zeros]), List.getElem?_append_left (by omega),
        List.getElem?_append_right (by omega)] at h1
      simp only [zeros, List.length_replicate, Nat.sub_self, List.getElem?_cons_zero] at h1
      rw [List.getElem?_replicate, if_pos (by omega)] at h1
      simp at h1
    have hx2 : prefix1 ++ (v ++ (zeros k ++ (prefix1 ++ r))) = x.take 24 ++ (x.drop 24 ++ (prefix1 ++ y)) := by
      rw [← List.append_assoc (x.take 24), List.take_append_drop]; exact hx
    have h3 := (List.append_inj hx2 (by simp [prefix1, zeros]; omega)).2
    have := first_prefix hw h3
    simp only [List.length_append, List.length_drop] at this ⊢
    have : prefix1.length = 24 := rfl
    omega

/-- What follows an element begins with a start code prefix. -/
theorem stream_starts {cs : List Nat} {m : List Bool} (t : CleanStream cs m) (r : List Bool) : ∃ r', m ++ (prefix1 ++ r) = prefix1 ++ r' := by
  cases t with
  | nil => exact ⟨r, rfl⟩
  | cons n cs k l m h t =>
    obtain ⟨-, w, rfl, -⟩ := fit_element h
    exact ⟨(bitsOf 8 n ++ w) ++ (zeros k ++ m) ++ (prefix1 ++ r), by simp [List.append_assoc]⟩

/-- **C147**, a stream: a start code prefix in a stream, at whatever bit position, is the beginning of one of its elements. -/
theorem C147_stream {cs : List Nat} {l : List Bool} (h : CleanStream cs l) (x y r : List Bool)
    (hx : l ++ (prefix1 ++ r) = x ++ (prefix1 ++ y)) (hl : x.length < l.length) :
    ∃ cs1 c cs2 m, cs = cs1 ++ c :: cs2 ∧ CleanStream cs1 x ∧ CleanStream (c :: cs2) m ∧ l = x ++ m := by
  induction h generalizing x with
  | nil => simp at hl
  | cons n cs k l m h t ih =>
    obtain ⟨r', hr'⟩ := stream_starts t r
    have hx' : l ++ (zeros k ++ (prefix1 ++ r')) = x ++ (prefix1 ++ y) := by
      rw [← hr', ← hx]; simp [List.append_assoc]
    rcases C147_element h k x y r' hx' with rfl | hge
    · exact ⟨[], n, cs, _, rfl, .nil, .cons n cs k l m h t, rfl⟩
    · have hx2 : (l ++ zeros k) ++ (m ++ (prefix1 ++ r)) = x.take (l.length + k) ++ (x.drop (l.length + k) ++ (prefix1 ++ y)) := by
        rw [← List.append_assoc (x.take _), List.take_append_drop, ← hx]; simp [List.append_assoc]
      obtain ⟨h1, h2⟩ := List.append_inj hx2 (by simp [zeros]; omega)
      have hzl : (zeros k).length = k := by simp [zeros]
      obtain ⟨cs1, c, cs2, m', c1, c2, c3, h3⟩ := ih _ h2 (by
        simp only [List.length_append, List.length_drop, hzl] at hl ⊢; omega)
      refine ⟨n :: cs1, c, cs2, m', by rw [c1]; rfl, ?_, c3, ?_⟩
      · rw [← List.take_append_drop (l.length + k) x, ← h1, List.append_assoc]
        exact .cons n cs1 k l _ h c2
      · have : x = (l ++ zeros k) ++ x.drop (l.length + k) := by rw [h1, List.take_append_drop]
        rw [this, List.append_assoc, ← h3, List.append_assoc]

theorem element_code {c n : Nat} {cs : List Nat} {m r : List Bool} (h : CleanStream (c :: cs) m) (hn : n < 256)
    (hm : (m ++ r).take 32 = bitsOf 32 (0x100 + n)) : n = c := by
  cases h with
  | cons _ _ k l m h t =>
    obtain ⟨hc, w, rfl, -⟩ := fit_element h
    rw [bits_code hn, show prefix1 ++ (bitsOf 8 c ++ w) ++ (zeros k ++ m) ++ r = (prefix1 ++ bitsOf 8 c) ++ (w ++ (zeros k ++ m) ++ r) by
      simp only [List.append_assoc], List.take_left' (by simp [prefix1, zeros])] at hm
    have := congrArg natOfBits (List.append_cancel_left hm)
    rw [natOfBits_bitsOf_of_lt (by omega), natOfBits_bitsOf_of_lt (by omega)] at this
    exact this.symm

/-- **C147**, start codes: from whatever position in a stream on, also inside an element, no start code occurs, at any bit position, but
those of the elements that begin there. -/
theorem C147_absent {cs : List Nat} {p m : List Bool} (h : CleanStream cs (p ++ m)) {n : Nat} (hn : n < 256)
    (hcs : (p ≠ [] ∧ n ∉ cs.tail) ∨ n ∉ cs) (r : List Bool) (i : Nat) (hi : i < m.length) :
    ((m ++ (prefix1 ++ r)).drop i).take 32 ≠ bitsOf 32 (0x100 + n) := by
  intro hc
  have e0 : m ++ (prefix1 ++ r) = m.take i ++ (prefix1 ++ (bitsOf 8 n ++ ((m ++ (prefix1 ++ r)).drop i).drop 32)) := by
    have : m.take i = (m ++ (prefix1 ++ r)).take i := by rw [List.take_append_of_le_length (by omega)]
    rw [← List.append_assoc prefix1, ← bits_code hn, ← hc, List.take_append_drop, this, List.take_append_drop]
  have hx : (p ++ m) ++ (prefix1 ++ r) = (p ++ m.take i) ++ (prefix1 ++ (bitsOf 8 n ++ ((m ++ (prefix1 ++ r)).drop i).drop 32)) := by
    rw [List.append_assoc, List.append_assoc, ← e0]
  have hlen : (p ++ m.take i).length < (p ++ m).length := by
    rw [List.length_append, List.length_append, List.length_take]; omega
  obtain ⟨cs1, c, cs2, m', c1, c2, c3, c4⟩ := C147_stream h _ _ r hx hlen
  have hm' : m' ++ (prefix1 ++ r) = (m ++ (prefix1 ++ r)).drop i := by
    rw [c4, List.append_assoc] at hx
    rw [List.append_cancel_left hx, ← List.append_assoc prefix1, ← bits_code hn, ← hc, List.take_append_drop]
  have hcn : n = c := element_code c3 hn (by rw [hm', hc])
  subst hcn
  rcases hcs with ⟨hp, hcs⟩ | hcs
  · cases cs1 with
    | nil =>
      have : p ++ m.take i = [] := by generalize p ++ m.take i = z at c2; cases c2; rfl
      exact hp (List.append_eq_nil_iff.mp this).1
    | cons d cs1 =>
      subst c1
      exact hcs (by simp)
  · subst c1
    exact hcs (by simp)

/-- **C147**, `AlignTo`: from any byte position in a stream, also inside an element, `AlignTo` stops exactly at the next element with the
start code that is asked for. -/
theorem C147_alignTo {cs : List Nat} {p m r : List Bool} (h : CleanStream cs (p ++ m)) {n : Nat} (hn : n < 256)
    (hcs : (p ≠ [] ∧ n ∉ cs.tail) ∨ n ∉ cs) (s : BR) (hb : fromBoundary s = m ++ (bitsOf 32 (0x100 + n) ++ r)) (h8 : m.length % 8 = 0) :
    alignTo (0x100 + n) s = (.ok (), ⟨bitsOf 32 (0x100 + n) ++ r, s.pos + padding s.pos + m.length, s.stop, s.later⟩) := by
  have hno : ∀ j, 8 * j < m.length → ((fromBoundary s).drop (8 * j)).take 32 ≠ bitsOf 32 (0x100 + n) := by
    intro j hj
    rw [hb, bits_code hn, List.append_assoc]
    rw [← bits_code hn]
    exact C147_absent h hn hcs _ _ hj
  obtain ⟨q, hq⟩ : ∃ q, m.length = 8 * q := ⟨m.length / 8, by omega⟩
  have hat : ((fromBoundary s).drop (8 * q)).take 32 = bitsOf 32 (0x100 + n) := by
    rw [hb, List.drop_left' hq, List.take_left' (length_bitsOf ..)]
  rcases C35 (0x100 + n) (by omega) s with ⟨j, m1, m2, m3⟩ | ⟨m1, _⟩
  · have hmq : j = q := by
      rcases Nat.lt_trichotomy j q with hlt | heq | hgt
      · exact absurd m2 (hno j (by omega))
      · exact heq
      · exact absurd hat (m3 q hgt)
    rw [m1, hmq, hb, List.drop_left' hq, hq]
  · exact absurd hat (m1 q)

/-- **C147**, joining a stream (partial: the groups are those of C75 and C87): from any byte position in a stream and any state of the
decoder, `AlignTo` with the sequence header code stops at the next entry point, and the calls of `Next` return its pictures. -/
theorem C147_seek_partial {W H fuel k base : Nat} {σ : Option Ctx} {prev : Option Image} {gs : List CGroup} {cs : List Nat}
    {p skip bits rest : List Bool} {imgs : List Image} (hk : 2 ≤ k) (hent : Entry gs) (s : VS)
    (hb : fromBoundary s.br = skip ++ (bits ++ (bitsOf 32 0x1B7 ++ rest))) (h8 : skip.length % 8 = 0)
    (hc : CleanStream cs (p ++ skip)) (hcs : (p ≠ [] ∧ 0xB3 ∉ cs.tail) ∨ 0xB3 ∉ cs)
    (h : GroupsCode W H base σ prev (s.br.pos + padding s.br.pos + skip.length) gs bits imgs) (hf : bits.length < fuel) :
    ∃ s1, VS.lift (alignTo 0x1B3) s = (.ok (), s1) ∧ ∃ w frames t, nexts fuel k (w.length + imgs.length) s1 = (.ok (w ++ frames), t) ∧
      w.length ≤ 2 ∧ (∀ f ∈ w, ∃ r, (s.fs.f0 = some r ∨ s.fs.f1 = some r) ∧ r.frame = f) ∧
      (s.fs.tryGet s.frameCounter = none → w = []) ∧
      frames.length = imgs.length ∧ (∀ i (h1 : i < frames.length) (h2 : i < imgs.length), Shows W H frames[i] imgs[i]) ∧
      (VS.next fuel k t).1 = .err .eos ∧ (VS.next fuel k t).2.br.bits = rest := by
  obtain ⟨u, hu⟩ := entry_starts hent h
  refine C87_seek_partial hk hent s hb h8 (fun j hj => ?_) h hf
  rw [hb, hu, show (0x1B3 : Nat) = 0x100 + 0xB3 from rfl, bits_code (by omega), List.append_assoc, List.append_assoc]
  rw [← bits_code (by omega)]
  exact C147_absent hc (by omega) hcs _ _ hj

/-- **C147**, joining at a closed group (partial: as C128). -/
theorem C147_group_partial {W H fuel k base : Nat} {x : Ctx} {prev : Option Image} {gs : List CGroup} {cs : List Nat}
    {p skip bits rest : List Bool} {imgs : List Image} (hk : 2 ≤ k) (hent : ClosedGop gs) (s : VS) (hat : At W H x s)
    (hb : fromBoundary s.br = skip ++ (bits ++ (bitsOf 32 0x1B7 ++ rest))) (h8 : skip.length % 8 = 0)
    (hc : CleanStream cs (p ++ skip)) (hcs : (p ≠ [] ∧ 0xB8 ∉ cs.tail) ∨ 0xB8 ∉ cs)
    (h : GroupsCode W H base (some x) prev (s.br.pos + padding s.br.pos + skip.length) gs bits imgs) (hf : bits.length < fuel) :
    ∃ s1, VS.lift (alignTo 0x1B8) s = (.ok (), s1) ∧ ∃ w frames t, nexts fuel k (w.length + imgs.length) s1 = (.ok (w ++ frames), t) ∧
      w.length ≤ 2 ∧ (∀ f ∈ w, ∃ r, (s.fs.f0 = some r ∨ s.fs.f1 = some r) ∧ r.frame = f) ∧
      (s.fs.tryGet s.frameCounter = none → w = []) ∧
      frames.length = imgs.length ∧ (∀ i (h1 : i < frames.length) (h2 : i < imgs.length), Shows W H frames[i] imgs[i]) ∧
      (VS.next fuel k t).1 = .err .eos ∧ (VS.next fuel k t).2.br.bits = rest := by
  obtain ⟨u, hu⟩ := gop_starts hent h
  refine C128_seek_partial hk hent s hat hb h8 (fun j hj => ?_) h hf
  rw [hb, hu, show (0x1B8 : Nat) = 0x100 + 0xB8 from rfl, bits_code (by omega), List.append_assoc, List.append_assoc]
  rw [← bits_code (by omega)]
  exact C147_absent hc (by omega) hcs _ _ hj

/-! ### concrete cases -/

namespace CodeEx

def pic : Pic := ⟨0, .other 1, 0, []⟩
def pext : PicExt := ⟨15, 15, 15, 15, 0, 3, false, 1, false, 0, 0, 0, false, true, true, none⟩
/-- a group of pictures header, a picture header, its extension and one slice -/
def stream : List Bool := encGOP exGOP ++ (zeros 5 ++ (encPic pic ++ (zeros 2 ++ (encPicExt pext ++ (zeros 6 ++
  (SynEx.slI ++ (zeros (padding SynEx.slI.length) ++ [])))))))
theorem clean : CleanStream [0xB8, 0, 0xB5, 1] stream :=
  .cons _ _ _ _ _ (.gop _ (by decide) rfl) <| .cons _ _ _ _ _ (.picture _ (by decide) (by decide : (1 : Nat) ≠ 0)) <|
    .cons _ _ _ _ _ (.pictureExt pext ⟨by decide, by decide, by decide, by decide, by decide, by decide, by decide, by decide, by decide, by decide,
      fun c hc => by cases hc⟩ (by decide)) <|
    .cons _ _ _ _ _ (.slice (SynEx.e 1) (CleanEx.used 1 (by decide)) 1 _ CleanEx.cleanSl (by decide) (by decide +kernel)) .nil

/-- the other elements -/
example : CleanElement 0xB2 (bitsOf 32 (0x100 + 0xB2) ++ (bitsOf 8 77 ++ bitsOf 8 0)) :=
  .other _ (by decide) _ (no_run (a := 0) (b := 22) (.of_fits (by decide +kernel)))
example : CleanElement 0xB3 (encSeq ⟨2048, 1, 1, 3, 0, 0, false, none, some (List.replicate 64 1)⟩) :=
  .seq _ (by decide +kernel) (by decide) (by decide) (by decide) (fun x hx => by cases hx) (fun x hx => by cases hx; decide +kernel)
example : CleanElement 0xB5 (encSeqExt ⟨0, 0, 1, 0, 0, 0, true, 0, 0, 0, 0⟩) := .seqExt _ (by decide) (by decide) rfl
example : CleanElement 0xB5 (bitsOf 32 0x1B5 ++ encSeqDisp ⟨0, some (1, 1, 128), 0, 0⟩) :=
  .display _ ⟨by decide, fun c hc => by cases hc; decide, by decide, by decide⟩ (fun c hc => by cases hc; decide)
example : CleanElement 0xB5 (bitsOf 32 0x1B5 ++ encQExt ⟨some (List.replicate 64 128), none, none, none⟩) :=
  .quant _ (by decide +kernel) (fun x hx => by cases hx; decide +kernel) (fun x hx => by cases hx) (fun x hx => by cases hx)
    (fun x hx => by cases hx)
example : CleanElement 0xB5 (bitsOf 32 0x1B5 ++ encTemp ⟨0, 0, 0⟩) := .temporal _ (by decide)

/-- the stream from the third byte on -/
def skip : List Bool := stream.drop 16
theorem skip8 : skip.length % 8 = 0 := by decide +kernel
theorem cut : CleanStream [0xB8, 0, 0xB5, 1] (stream.take 16 ++ skip) := by
  rw [skip, List.take_append_drop]; exact clean

/-- The next group of pictures is found from inside the first one, over a picture. -/
example (r : List Bool) : alignTo (0x100 + 0xB8) ⟨skip ++ (bitsOf 32 (0x100 + 0xB8) ++ r), 16, .eof, []⟩ =
    (.ok (), ⟨bitsOf 32 (0x100 + 0xB8) ++ r, 16 + padding 16 + skip.length, .eof, []⟩) :=
  C147_alignTo cut (by decide) (.inl ⟨by decide +kernel, by decide⟩) _ (by simp [fromBoundary, padding]) skip8

/-- Joining: the decoder stands in the middle of a group of pictures header. -/
example : ∃ bits s1 w frames t, VS.lift (alignTo 0x1B3) (ExStream.dirty ⟨[true, false] ++ (skip ++ (bits ++ (bitsOf 32 0x1B7 ++ []))),
      14, .eof, []⟩) = (.ok (), s1) ∧ nexts (bits.length + 1) 2 (w + 3) s1 = (.ok frames, t) := by
  obtain ⟨bits, imgs, h, h3⟩ := ExStream.stream_at (16 + skip.length)
  have hfb : fromBoundary (ExStream.dirty ⟨[true, false] ++ (skip ++ (bits ++ (bitsOf 32 0x1B7 ++ []))), 14, .eof, []⟩).br =
      skip ++ (bits ++ (bitsOf 32 0x1B7 ++ [])) := by
    generalize skip ++ (bits ++ (bitsOf 32 0x1B7 ++ [])) = x
    show List.drop (padding 14) ([true, false] ++ x) = x
    rw [show padding 14 = 2 by decide]
    rfl
  obtain ⟨s1, r0, w, frames, t, r1, _⟩ := C147_seek_partial (rest := []) (k := 2) (skip := skip) (Nat.le_refl _) ExStream.entry
    (ExStream.dirty ⟨[true, false] ++ (skip ++ (bits ++ (bitsOf 32 0x1B7 ++ []))), 14, .eof, []⟩) hfb skip8 cut
    (.inl ⟨by decide +kernel, by decide⟩)
    (by rw [show (ExStream.dirty ⟨[true, false] ++ (skip ++ (bits ++ (bitsOf 32 0x1B7 ++ []))), 14, .eof, []⟩).br.pos = 14 from rfl,
      show 14 + padding 14 = 16 by decide]; exact h) (Nat.lt_succ_self _)
  exact ⟨bits, s1, w.length, w ++ frames, t, r0, by rw [← h3]; exact r1⟩

/-- a group of pictures header without its marker bit, at time 0 -/
def badGOP : GOP := ⟨false, 0, 0, false, 0, 2, false, false⟩
end CodeEx

/-- **C147** is false for all headers that the decoder accepts: a group of pictures header without its marker bit is read without error,
but contains the start code of a picture, at which `AlignTo` stops. -/
theorem C147_marker_false : ∃ (h : GOP) (t : Tail), h.WF ∧ t.OK (encGOP h).length ∧ t.pad = zeros t.pad.length ∧
    (∃ x, readGOPHeader ⟨encGOP h ++ t.bits, 0, .eof, []⟩ = (.ok x, t.after (encGOP h).length .eof [])) ∧
    (alignTo 0x100 ⟨encGOP h ++ t.bits, 0, .eof, []⟩).1 = .ok () ∧
    (alignTo 0x100 ⟨encGOP h ++ t.bits, 0, .eof, []⟩).2.pos = 32 ∧ 32 < (encGOP h).length := by
  refine ⟨CodeEx.badGOP, ⟨zeros 5, 1, bitsOf 8 0xB3⟩, by decide, by decide +kernel, by decide, ?_, by decide +kernel, by decide +kernel, by decide +kernel⟩
  obtain ⟨x, h1, _⟩ := C39 (pos := 0) (stop := .eof) (later := []) CodeEx.badGOP (by decide) ⟨zeros 5, 1, bitsOf 8 0xB3⟩ (by decide +kernel)
  exact ⟨x, by rw [h1, Nat.zero_add]⟩

end Mpeg.Video
