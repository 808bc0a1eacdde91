/-
Lemmas on macroblock address increments and motion vectors.
-/
import Verif.Video.MacroblockModel
import Verif.Video.BlockProps
import Verif.Video.FrameProps
import Verif.Video.MbSpec
namespace Mpeg.Video
open Spec

/-! ### address increment -/

theorem pf_addrEscape : PrefixFree ((addressEscape, 0) :: addrTable) := prefixFree_of_b (by decide +kernel)

theorem escape_eq : addressEscape = bitsOf 11 8 := by decide +kernel
theorem escapes_length (k : Nat) : (escapes k).length = 11 * k := by
  induction k with
  | zero => rfl
  | succ k ih => rw [escapes, List.length_append, ih, escape_eq, length_bitsOf]; omega

theorem not_escape {c r : List Bool} {v : Nat} (hm : (c, v) ∈ addrTable) (h11 : 11 ≤ (c ++ r).length) :
    natOfBits ((c ++ r).take 11) ≠ 8 := by
  intro h
  have hl : ((c ++ r).take 11).length = 11 := by rw [List.length_take]; omega
  have e : (c ++ r).take 11 = addressEscape := by
    have := bitsOf_natOfBits' hl
    rw [h] at this
    rw [escape_eq]; exact this.symm
  have p1 : addressEscape <+: c ++ r := by rw [← e]; exact List.take_prefix _ _
  have p2 : c <+: c ++ r := List.prefix_append _ _
  have m1 : (addressEscape, 0) ∈ (addressEscape, 0) :: addrTable := List.mem_cons_self ..
  have m2 : (c, v) ∈ (addressEscape, 0) :: addrTable := List.mem_cons_of_mem _ hm
  have hne : ((addressEscape, 0) : List Bool × Nat) ∉ addrTable := by decide +kernel
  rcases Nat.le_total addressEscape.length c.length with hle | hle
  · have := (pf_addrEscape _ m1).2 _ m2 (List.prefix_of_prefix_length_le p1 p2 hle)
    rw [← this] at hm; exact hne hm
  · have := (pf_addrEscape _ m2).2 _ m1 (List.prefix_of_prefix_length_le p2 p1 hle)
    rw [this] at hm; exact hne hm

theorem escapeLoop_run {c r : List Bool} {v : Nat} (hm : (c, v) ∈ addrTable) (h11 : 11 ≤ (c ++ r).length)
    {stop : Err} {later : List (List Bool × Err)} : ∀ (k fuel incr pos : Nat), k < fuel →
    escapeLoop fuel incr ⟨escapes k ++ (c ++ r), pos, stop, later⟩ =
      (.ok (incr + 33 * k), ⟨c ++ r, pos + 11 * k, stop, later⟩) := by
  intro k
  induction k with
  | zero =>
    intro fuel incr pos hf
    obtain ⟨f, rfl⟩ : ∃ f, fuel = f + 1 := ⟨fuel - 1, by omega⟩
    unfold escapeLoop
    rw [Go.bind_ok (BR.peek_ok (by simpa [escapes] using h11)), if_neg (by simpa [escapes] using not_escape hm h11)]
    simp [escapes]
  | succ k ih =>
    intro fuel incr pos hf
    obtain ⟨f, rfl⟩ : ∃ f, fuel = f + 1 := ⟨fuel - 1, by omega⟩
    unfold escapeLoop
    have hb : (⟨escapes (k + 1) ++ (c ++ r), pos, stop, later⟩ : BR) =
        ⟨bitsOf 11 8 ++ (escapes k ++ (c ++ r)), pos, stop, later⟩ := by
      rw [escapes, escape_eq, List.append_assoc]
    have hs : Go.ignoreErr (BR.skip 11) (⟨bitsOf 11 8 ++ (escapes k ++ (c ++ r)), pos, stop, later⟩ : BR) =
        (.ok (), ⟨escapes k ++ (c ++ r), pos + 11, stop, later⟩) := by
      unfold Go.ignoreErr
      rw [BR.skip_bitsOf]
    rw [hb, Go.bind_ok (BR.peek_bitsOf 11 8), if_pos (by decide), Go.bind_ok hs, ih f (incr + 33) (pos + 11) (by omega)]
    have e1 : incr + 33 + 33 * k = incr + 33 * (k + 1) := by omega
    have e2 : pos + 11 + 11 * k = pos + 11 * (k + 1) := by omega
    rw [e1, e2]

theorem mbIncrement_run {c r : List Bool} {v : Nat} (hm : (c, v) ∈ addrTable) (h11 : 11 ≤ (c ++ r).length)
    (k pos : Nat) (stop : Err) (later : List (List Bool × Err)) :
    mbIncrement ⟨escapes k ++ (c ++ r), pos, stop, later⟩ =
      (.ok (33 * k + v), ⟨r, pos + 11 * k + c.length, stop, later⟩) := by
  unfold mbIncrement
  have h1 : escapeCount ⟨escapes k ++ (c ++ r), pos, stop, later⟩ =
      (.ok (0 + 33 * k), ⟨c ++ r, pos + 11 * k, stop, later⟩) := by
    apply escapeLoop_run hm h11
    have := escapes_length k
    simp only [List.length_append]; omega
  have h2 : addressIncrement ⟨c ++ r, pos + 11 * k, stop, later⟩ = (.ok v, ⟨r, pos + 11 * k + c.length, stop, later⟩) :=
    huffDecode_code pf_addr hm r _ stop later
  rw [Go.bind_ok h1, Go.bind_ok h2, Nat.zero_add]
  rfl

theorem escapeLoop_result : ∀ (fuel incr : Nat) (s : BR), s.bits.length < fuel →
    (escapeLoop fuel incr s).1 ≠ .hang ∧ (escapeLoop fuel incr s).1 ≠ .panic ∧
    (escapeLoop fuel incr s).2.size ≤ s.size ∧
    ∀ n s', escapeLoop fuel incr s = (.ok n, s') → ∃ k, n = incr + 33 * k ∧ BR.Took s (escapes k) s' := by
  intro fuel
  induction fuel with
  | zero => intro incr s h; omega
  | succ fuel ih =>
    intro incr s h
    unfold escapeLoop
    by_cases h1 : s.bits.length < 11
    · rw [Go.bind_err (BR.peek_short h1)]
      exact ⟨by simp, by simp, BR.size_failTo s, by simp⟩
    · rw [Go.bind_ok (BR.peek_ok (by omega))]
      split
      · rename_i h8
        have hs : Go.ignoreErr (BR.skip 11) s = (.ok (), s.adv 11) := by
          unfold Go.ignoreErr
          rw [BR.skip_ok (by omega)]
        rw [Go.bind_ok hs]
        obtain ⟨a, b, c, d⟩ := ih (incr + 33) (s.adv 11) (by simp only [BR.adv, List.length_drop]; omega)
        refine ⟨a, b, Nat.le_trans c (BR.size_adv _ _), fun n s' hn => ?_⟩
        obtain ⟨k, hk, ht⟩ := d n s' hn
        have hl : (s.bits.take 11).length = 11 := by rw [List.length_take]; omega
        have e : s.bits.take 11 = addressEscape := by
          have := bitsOf_natOfBits' hl
          rw [h8] at this
          rw [escape_eq]; exact this.symm
        have ht1 := BR.took_adv (s := s) (k := 11) (by omega)
        rw [e] at ht1
        exact ⟨k + 1, by omega, ht1.trans ht⟩
      · refine ⟨by simp, by simp, Nat.le_refl _, fun n s' hn => ?_⟩
        cases hn
        exact ⟨0, rfl, .refl s⟩

theorem addr_ne_nil : addrTable ≠ [] := by decide +kernel

theorem safe_mbIncrement : Go.Safe mbIncrement := by
  unfold mbIncrement
  refine .bind (fun s => ?_) fun _ => .bind (safe_huffDecode (PrefixFree.ne_nil pf_addr) addr_ne_nil) fun _ => .pure _
  obtain ⟨a, b, _⟩ := escapeLoop_result (s.bits.length + 1) 0 s (by omega)
  exact ⟨b, a⟩

theorem noninc_mbIncrement : Go.NonInc BR.size mbIncrement := by
  unfold mbIncrement
  refine .bind (fun s => ?_) fun _ => .bind (noninc_huffDecode (PrefixFree.ne_nil pf_addr) addr_ne_nil) fun _ => .pure _
  exact (escapeLoop_result (s.bits.length + 1) 0 s (by omega)).2.2.1

theorem mbIncrement_inv {s s' : BR} {n : Nat} (h : mbIncrement s = (.ok n, s')) :
    ∃ k c v, n = 33 * k + v ∧ (c, v) ∈ addrTable ∧ BR.Took s (escapes k ++ c) s' := by
  unfold mbIncrement at h
  obtain ⟨m, s1, h1, h⟩ := Go.bind_eq_ok h
  obtain ⟨v, s2, h2, h⟩ := Go.bind_eq_ok h
  obtain ⟨k, hk, ht⟩ := (escapeLoop_result (s.bits.length + 1) 0 s (by omega)).2.2.2 m s1 h1
  obtain ⟨c, hc, ht2⟩ := huffDecode_inv (PrefixFree.ne_nil pf_addr) addr_ne_nil h2
  cases h
  exact ⟨k, c, v, by omega, hc, ht.trans ht2⟩

/-! ### motion vectors -/

theorem fScale_eq {fc : Nat} (h1 : 1 ≤ fc) (h2 : fc ≤ 15) : fScale fc = (mvScale fc : Int) := by
  have h : rSize fc = fc - 1 := by unfold rSize; omega
  rw [fScale, h, if_pos (by omega), mvScale]
  rfl

theorem mvScale_pos (fc : Nat) : 1 ≤ mvScale fc := Nat.one_le_two_pow

theorem mvScale_one_iff {fc : Nat} (h1 : 1 ≤ fc) : mvScale fc = 1 ↔ fc = 1 := by
  constructor
  · intro h
    by_cases h2 : fc = 1
    · exact h2
    · have : 2 ^ 1 ≤ 2 ^ (fc - 1) := Nat.pow_le_pow_right (by omega) (by omega)
      rw [mvScale] at h; omega
  · rintro rfl; rfl

theorem mvDelta_code (fc : Nat) (d : Int) :
    mvDelta (mvScale fc : Int) (mvCode fc d) (mvResidual fc d) = d := by
  have hp := mvScale_pos fc
  unfold mvDelta mvCode mvResidual
  by_cases h0 : d = 0
  · simp [h0]
  · simp only [h0, ↓reduceIte]
    generalize mvScale fc = f at *
    have hq := Nat.div_add_mod (d.natAbs - 1) f
    generalize hqq : (d.natAbs - 1) / f = q at *
    generalize hrr : (d.natAbs - 1) % f = r at *
    rcases Int.lt_or_gt_of_ne h0 with hd | hd
    · have hs : d.sign = -1 := Int.sign_eq_neg_one_of_neg hd
      rw [hs]
      have e1 : (-1 * ((q + 1 : Nat) : Int)).natAbs = q + 1 := by omega
      by_cases hf : (f : Int) = 1
      · rw [if_pos (.inl hf)]
        have : f = 1 := by omega
        subst this
        have hr1 : r = 0 := by rw [← hrr]; exact Nat.mod_one _
        omega
      · rw [if_neg (by omega), if_pos (by omega), e1]
        have e2 : ((q + 1 : Nat) : Int) - 1 = q := by omega
        rw [e2, Int.mul_comm]
        have e3 : (f : Int) * q = ((f * q : Nat) : Int) := by push_cast; rfl
        rw [e3]
        omega
    · have hs : d.sign = 1 := Int.sign_eq_one_of_pos hd
      rw [hs]
      have e1 : (1 * ((q + 1 : Nat) : Int)).natAbs = q + 1 := by omega
      by_cases hf : (f : Int) = 1
      · rw [if_pos (.inl hf)]
        have : f = 1 := by omega
        subst this
        have hr1 : r = 0 := by rw [← hrr]; exact Nat.mod_one _
        omega
      · rw [if_neg (by omega), if_neg (by omega), e1]
        have e2 : ((q + 1 : Nat) : Int) - 1 = q := by omega
        rw [e2, Int.mul_comm]
        have e3 : (f : Int) * q = ((f * q : Nat) : Int) := by push_cast; rfl
        rw [e3]
        omega

theorem mvWrap_difference {fc : Nat} {p v : Int} (hv : mvLegal fc v) :
    mvWrap (mvScale fc : Int) (p + mvDifference fc p v) = v := by
  have hp := mvScale_pos fc
  unfold mvLegal at hv
  unfold mvWrap mvDifference
  generalize mvScale fc = f at *
  dsimp only
  split <;> split <;> (try split) <;> (try split) <;> omega

theorem motion_ne_nil : motionTable ≠ [] := by decide +kernel

theorem mvCode_zero {fc : Nat} {d : Int} : mvCode fc d = 0 ↔ d = 0 := by
  unfold mvCode
  constructor
  · intro h
    by_cases h0 : d = 0
    · exact h0
    · rw [if_neg h0] at h
      rcases Int.mul_eq_zero.1 h with h | h
      · exact Int.sign_eq_zero_iff_zero.1 h
      · exfalso; generalize (d.natAbs - 1) / mvScale fc = q at h; omega
  · intro h; rw [if_pos h]

theorem mvResidual_lt (fc : Nat) (d : Int) : mvResidual fc d < 2 ^ (fc - 1) := by
  unfold mvResidual
  split
  · exact Nat.pow_pos (by omega)
  · exact Nat.mod_lt _ (mvScale_pos fc)

theorem readMotion_run {fc : Nat} {d : Int} {bits : List Bool} (h1 : 1 ≤ fc) (h2 : fc ≤ 15) (h : MvBits fc d bits)
    (r : List Bool) (pos : Nat) (stop : Err) (later : List (List Bool × Err)) :
    readMotion fc ⟨bits ++ r, pos, stop, later⟩ =
      (.ok (mvCode fc d, mvResidual fc d), ⟨r, pos + bits.length, stop, later⟩) := by
  obtain ⟨c, hc⟩ := h
  have hm : (c, mvCode fc d) ∈ motionTable := (same_motion _).2 hc
  have hr : rSize fc = fc - 1 := by unfold rSize; omega
  unfold readMotion
  generalize ht : (if fc ≠ 1 ∧ d ≠ 0 then bitsOf (fc - 1) (mvResidual fc d) else []) = tail
  have e1 : decodeMotionCode ⟨c ++ tail ++ r, pos, stop, later⟩ =
      (.ok (mvCode fc d), ⟨tail ++ r, pos + c.length, stop, later⟩) := by
    rw [List.append_assoc]
    exact huffDecode_code pf_motion hm _ pos stop later
  rw [Go.bind_ok e1, hr]
  by_cases hcnd : fc ≠ 1 ∧ d ≠ 0
  · rw [if_pos hcnd] at ht
    have hb : (fc != 1 && mvCode fc d != 0) = true := by
      have := mvCode_zero (fc := fc) (d := d)
      simp [hcnd.1, this, hcnd.2]
    rw [hb, ← ht]
    simp only [Go.opt, ↓reduceIte]
    rw [Go.bind_ok (BR.read_bitsOf _ _), Nat.mod_eq_of_lt (mvResidual_lt fc d)]
    simp only [List.length_append, length_bitsOf, ← Nat.add_assoc]
    rfl
  · rw [if_neg hcnd] at ht
    have hb : (fc != 1 && mvCode fc d != 0) = false := by
      have := mvCode_zero (fc := fc) (d := d)
      by_cases h1 : fc = 1
      · simp [h1]
      · have : d = 0 := by
          by_cases hd : d = 0
          · exact hd
          · exact absurd ⟨h1, hd⟩ hcnd
        simp [this, mvCode]
    have hz : mvResidual fc d = 0 := by
      unfold mvResidual
      by_cases hd : d = 0
      · simp [hd]
      · have : fc = 1 := by
          by_cases h1 : fc = 1
          · exact h1
          · exact absurd ⟨h1, hd⟩ hcnd
        simp [this, mvScale, Nat.mod_one]
    rw [hb, ← ht]
    have e2 : Go.opt false 0 (BR.read (fc - 1)) ⟨[] ++ r, pos + c.length, stop, later⟩ =
        (.ok 0, ⟨[] ++ r, pos + c.length, stop, later⟩) := rfl
    rw [Go.bind_ok e2, hz]
    simp

/-- every difference of a legal vector to a legal prediction has a code -/
theorem mvBits_exists {fc : Nat} {d : Int} (h : d.natAbs ≤ 16 * mvScale fc) : ∃ bits, MvBits fc d bits := by
  have key : ∀ k : Nat, k ≤ 32 → isoMotion.any (fun e => e.2 == ((k : Int) - 16)) = true := by
    have : ∀ k : Nat, k < 33 → isoMotion.any (fun e => e.2 == ((k : Int) - 16)) = true := by decide +kernel
    intro k hk; exact this k (by omega)
  have hc : -16 ≤ mvCode fc d ∧ mvCode fc d ≤ 16 := by
    unfold mvCode
    split
    · omega
    · rename_i h0
      have hq : (d.natAbs - 1) / mvScale fc < 16 := by
        have := mvScale_pos fc
        rw [Nat.div_lt_iff_lt_mul (mvScale_pos fc)]; omega
      generalize (d.natAbs - 1) / mvScale fc = q at hq ⊢
      rcases Int.lt_or_gt_of_ne h0 with hd | hd
      · rw [Int.sign_eq_neg_one_of_neg hd]; omega
      · rw [Int.sign_eq_one_of_pos hd]; omega
  have := key (mvCode fc d + 16).toNat (by omega)
  rw [List.any_eq_true] at this
  obtain ⟨⟨c, v⟩, hm, hv⟩ := this
  have hv : v = mvCode fc d := by
    have : v = (((mvCode fc d + 16).toNat : Nat) : Int) - 16 := by simpa using hv
    omega
  subst hv
  exact ⟨_, .mk c hm⟩

theorem mlift_run {α : Type} {m : Go BR α} {s : MB} {a : α} {br' : BR} (h : m s.br = (.ok a, br')) :
    MB.lift m s = (.ok a, { s with br := br' }) := by
  unfold MB.lift; rw [h]

/-! ### range of the vectors -/

theorem mvDelta_range {f code : Int} {residual : Nat} (hf : 1 ≤ f) (hc : code.natAbs ≤ 16) (hr : (residual : Int) < f) :
    -16 * f ≤ mvDelta f code residual ∧ mvDelta f code residual ≤ 16 * f := by
  unfold mvDelta
  split
  · omega
  · rename_i h
    have h0 : code ≠ 0 := fun h' => h (.inr h')
    have h1 : ((code.natAbs : Int) - 1) * f ≤ 15 * f := Int.mul_le_mul_of_nonneg_right (by omega) (by omega)
    have h2 : 0 ≤ ((code.natAbs : Int) - 1) * f := Int.mul_nonneg (by omega) (by omega)
    dsimp only
    split <;> omega

theorem mvWrap_range {f v : Int} (hf : 1 ≤ f) (h : -48 * f ≤ v ∧ v ≤ 48 * f - 1) :
    -16 * f ≤ mvWrap f v ∧ mvWrap f v ≤ 16 * f - 1 := by
  unfold mvWrap
  dsimp only
  split <;> split <;> omega

theorem motionCode_range {s s' : BR} {v : Int} (h : decodeMotionCode s = (.ok v, s')) : v.natAbs ≤ 16 := by
  obtain ⟨c, hc, _⟩ := huffDecode_inv (PrefixFree.ne_nil pf_motion) motion_ne_nil h
  have key : motionTable.all (fun e => decide (e.2.natAbs ≤ 16)) = true := by decide +kernel
  rw [List.all_eq_true] at key
  simpa using key _ hc

theorem readMotion_range {fc : Nat} (h1 : 1 ≤ fc) (h2 : fc ≤ 15) {s s' : BR} {c : Int × Nat}
    (h : readMotion fc s = (.ok c, s')) : c.1.natAbs ≤ 16 ∧ c.2 < mvScale fc := by
  unfold readMotion at h
  obtain ⟨code, s1, h3, h⟩ := Go.bind_eq_ok h
  obtain ⟨r, s2, h4, h⟩ := Go.bind_eq_ok h
  cases h
  refine ⟨motionCode_range h3, ?_⟩
  unfold Go.opt at h4
  split at h4
  · obtain ⟨l, _, hl, rfl⟩ := BR.read_inv h4
    have hr : rSize fc = fc - 1 := by unfold rSize; omega
    have := natOfBits_lt l
    rw [hl, hr] at this
    exact this
  · cases h4
    exact mvScale_pos fc

end Mpeg.Video
