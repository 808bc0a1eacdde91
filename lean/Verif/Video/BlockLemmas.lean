/-
Execution of the block parser.
-/
import Verif.Video.BlockModel
import Verif.Video.BlockSpec
import Verif.Video.VlcLemmas
set_option linter.all false
namespace Mpeg.Video
open Spec

theorem getD_app_left {l l' : List Int} {i : Nat} (h : i < l.length) : (l ++ l').getD i 0 = l.getD i 0 := by
  simp [List.getD_eq_getElem?_getD, List.getElem?_append_left h]
theorem getD_app_right {l l' : List Int} {i : Nat} (h : l.length ≤ i) :
    (l ++ l').getD i 0 = l'.getD (i - l.length) 0 := by
  simp [List.getD_eq_getElem?_getD, List.getElem?_append_right h]

theorem i32_of_range {x : Int} (h1 : -2 ^ 31 ≤ x) (h2 : x < 2 ^ 31) : i32 x = x := by
  unfold i32
  exact Int.bmod_eq_of_le (by omega) (by omega)

/-! ### DC -/

theorem isoDc_mem {cc : Nat} {c : List Bool} {n : Nat} (h : (c, n) ∈ isoDc cc) :
    (c, n) ∈ (if cc = 0 then dcLumaTable else dcChromaTable) := by
  unfold isoDc at h
  split at h
  · rename_i hc; rw [if_pos hc]; exact (same_dcLuma _).mpr h
  · rename_i hc; rw [if_neg hc]; exact (same_dcChroma _).mpr h

theorem pf_dc (cc : Nat) : PrefixFree (if cc = 0 then dcLumaTable else dcChromaTable) := by
  split
  · exact pf_dcLuma
  · exact pf_dcChroma

theorem dc_ne_nil (cc : Nat) : (if cc = 0 then dcLumaTable else dcChromaTable) ≠ [] := by
  split <;> decide

theorem magnitudeBits_bounds {n : Nat} (h : n ≠ 0) :
    2 ^ (magnitudeBits n - 1) ≤ n ∧ n < 2 ^ magnitudeBits n ∧ magnitudeBits n ≠ 0 := by
  unfold magnitudeBits
  rw [if_neg h]
  refine ⟨?_, Nat.lt_log2_self, by omega⟩
  simpa using Nat.log2_self_le h

theorem dcDiff_bits (d : Int) :
    dcDiff (dcSizeOf d) ((if 0 ≤ d then d.natAbs else 2 ^ dcSizeOf d - 1 - d.natAbs) % 2 ^ dcSizeOf d) = d := by
  by_cases h0 : d = 0
  · subst h0; rfl
  · have hn : d.natAbs ≠ 0 := by omega
    obtain ⟨h1, h2, h3⟩ := magnitudeBits_bounds hn
    have h4 : 2 ^ dcSizeOf d = 2 * 2 ^ (dcSizeOf d - 1) := by
      unfold dcSizeOf
      rw [← Nat.pow_succ']; congr 1; omega
    have e : ((2 : Int) ^ (dcSizeOf d - 1)) = ((2 ^ (dcSizeOf d - 1) : Nat) : Int) := by push_cast; rfl
    unfold dcDiff
    have h1' : 2 ^ (dcSizeOf d - 1) ≤ d.natAbs := h1
    have h2' : d.natAbs < 2 ^ dcSizeOf d := h2
    have h3' : dcSizeOf d ≠ 0 := h3
    rw [if_neg h3', e]
    generalize hp : 2 ^ (dcSizeOf d - 1) = p at *
    generalize hq : 2 ^ (dcSizeOf d) = q at *
    by_cases hd : 0 ≤ d
    · rw [if_pos hd, Nat.mod_eq_of_lt h2', if_pos h1']; omega
    · rw [if_neg hd, Nat.mod_eq_of_lt (by omega), if_neg (by omega)]; omega

/-! ### coefficients -/

theorem isoCoef_mem {one first : Bool} {e : List Bool × DctSym} (h : e ∈ isoCoef one first)
    (ho : one = true → first = false) : e ∈ dctTable one first := by
  unfold isoCoef at h
  cases one <;> cases first
  · exact (same_b14 _).mpr h
  · exact (same_b14First _).mpr h
  · exact (same_b15 _).mpr h
  · exact absurd (ho rfl) (by simp)

theorem mem_isoCoef {one first : Bool} {e : List Bool × DctSym} (h : e ∈ dctTable one first)
    (ho : one = true → first = false) : e ∈ isoCoef one first := by
  unfold isoCoef
  cases one <;> cases first
  · exact (same_b14 _).mp h
  · exact (same_b14First _).mp h
  · exact (same_b15 _).mp h
  · exact absurd (ho rfl) (by simp)

theorem dctTable_ne_nil (one first : Bool) : dctTable one first ≠ [] := by
  cases one <;> cases first <;> decide

variable {r : List Bool} {pos : Nat} {stop : Err} {later : List (List Bool × Err)}

theorem eob_run {one : Bool} {n : Nat} (hn : n ≠ 0) {c : List Bool} (h : (c, DctSym.eob) ∈ isoCoef one false) :
    dctCoefficient one n ⟨c ++ r, pos, stop, later⟩ = (.ok .eob, ⟨r, pos + c.length, stop, later⟩) := by
  unfold dctCoefficient
  have hd : decide (n = 0) = false := by simp [hn]
  rw [hd]
  rw [Go.bind_ok (huffDecode_code (pf_dctTable one false) (isoCoef_mem h (fun _ => rfl)) r pos stop later)]
  rfl

theorem event_run {one : Bool} {n : Nat} (ho : one = true → n ≠ 0) {run : Nat} {level : Int} {c : List Bool}
    (h : EventCode one (decide (n = 0)) run level c) :
    dctCoefficient one n ⟨c ++ r, pos, stop, later⟩ =
      (.ok (.coef run level), ⟨r, pos + c.length, stop, later⟩) := by
  have ho' : one = true → decide (n = 0) = false := fun h => by simp [ho h]
  unfold dctCoefficient
  cases h with
  | vlc c h hl =>
    rw [List.append_assoc,
      Go.bind_ok (huffDecode_code (pf_dctTable one _) (isoCoef_mem h ho') _ pos stop later)]
    unfold dctTail
    simp only
    rw [show ([decide (level < 0)] ++ r) = decide (level < 0) :: r from rfl, Go.bind_ok (BR.read1_cons _)]
    simp only [Go.pure_apply, Prod.mk.injEq, Res.ok.injEq, DctEvent.coef.injEq, true_and, List.length_append,
      List.length_singleton, BR.mk.injEq, and_true]
    refine ⟨?_, by omega⟩
    by_cases hl : level < 0
    · rw [if_pos (by simpa using hl)]; omega
    · rw [if_neg (by simpa using hl)]; omega
  | escape c h hr hl =>
    rw [List.append_assoc, List.append_assoc,
      Go.bind_ok (huffDecode_code (pf_dctTable one _) (isoCoef_mem h ho') _ pos stop later)]
    unfold dctTail
    simp only
    generalize hk : (if 0 ≤ level then level.natAbs else 4096 - level.natAbs) = k
    have hk4 : k < 4096 := by rw [← hk]; split <;> omega
    rw [Go.bind_ok (BR.read_bitsOf 6 run)]
    have e : bitsOf 12 k = decide (k / 2048 % 2 = 1) :: bitsOf 11 k := by
      have := bitsOf_append 1 11 k
      rw [show (1 + 11 : Nat) = 12 from rfl] at this
      rw [this]; simp [bitsOf]
    rw [e, List.cons_append, Go.bind_ok (BR.read1_cons _), Go.bind_ok (BR.read_bitsOf 11 k)]
    simp only [Go.pure_apply, Prod.mk.injEq, Res.ok.injEq, DctEvent.coef.injEq, List.length_append,
      List.length_cons, length_bitsOf, BR.mk.injEq, and_true]
    refine ⟨⟨Nat.mod_eq_of_lt hr, ?_⟩, by simp; omega⟩
    have h11 : (2 : Nat) ^ 11 = 2048 := rfl
    rw [h11]
    by_cases h0 : 0 ≤ level
    · rw [if_pos h0] at hk
      rw [if_neg (by simp; omega)]; omega
    · rw [if_neg h0] at hk
      rw [if_pos (by simp; omega)]; omega

/-- What a decoded event says about the bits. -/
theorem event_inv {one : Bool} {n : Nat} (ho : one = true → n ≠ 0) {s s' : BR} {ev : DctEvent}
    (h : dctCoefficient one n s = (.ok ev, s')) :
    ∃ c, BR.Took s c s' ∧
      (match ev with
       | .eob => (c, DctSym.eob) ∈ isoCoef one (decide (n = 0))
       | .coef run level => EventCode one (decide (n = 0)) run level c) := by
  have ho' : one = true → decide (n = 0) = false := fun h => by simp [ho h]
  unfold dctCoefficient at h
  obtain ⟨sym, s1, h1, h2⟩ := Go.bind_eq_ok h
  obtain ⟨c, hm, took1⟩ := huffDecode_inv (PrefixFree.ne_nil (pf_dctTable one _)) (dctTable_ne_nil one _) h1
  have hm' := mem_isoCoef hm ho'
  cases sym with
  | eob =>
    unfold dctTail at h2
    cases h2
    exact ⟨c, took1, hm'⟩
  | escape =>
    unfold dctTail at h2
    simp only at h2
    obtain ⟨run, s2, h3, h4⟩ := Go.bind_eq_ok h2
    obtain ⟨sign, s3, h5, h6⟩ := Go.bind_eq_ok h4
    obtain ⟨v, s4, h7, h8⟩ := Go.bind_eq_ok h6
    cases h8
    obtain ⟨l1, took2, hl1, hv1⟩ := BR.read_inv h3
    have took3 := BR.read1_inv h5
    obtain ⟨l2, took4, hl2, hv2⟩ := BR.read_inv h7
    have hr : run < 64 := by have := natOfBits_lt l1; rw [hl1, ← hv1] at this; exact this
    have hv : v < 2048 := by have := natOfBits_lt l2; rw [hl2, ← hv2] at this; exact this
    refine ⟨c ++ l1 ++ (sign :: l2), ?_, ?_⟩
    · have := ((took1.trans took2).trans took3).trans took4
      simpa using this
    · have e1 : bitsOf 6 run = l1 := by rw [hv1]; exact bitsOf_natOfBits' hl1
      have e2 : bitsOf 11 v = l2 := by rw [hv2]; exact bitsOf_natOfBits' hl2
      have hlev : -2048 ≤ (if sign = true then (-2048 : Int) else 0) + (v : Int) ∧
          (if sign = true then (-2048 : Int) else 0) + (v : Int) < 2048 := by split <;> omega
      have key := EventCode.escape (one := one) (first := decide (n = 0)) (run := run) c hm' hr hlev
      have e3 : ∀ k : Nat, k < 4096 → bitsOf 12 k = decide (k / 2048 % 2 = 1) :: bitsOf 11 (k % 2048) := by
        intro k _
        have := bitsOf_append 1 11 k
        rw [show (1 + 11 : Nat) = 12 from rfl] at this
        rw [this, show (2048 : Nat) = 2 ^ 11 from rfl, bitsOf_mod 11 k 11 (Nat.le_refl _)]; simp [bitsOf]
      have hk4 : (if 0 ≤ (if sign = true then (-2048 : Int) else 0) + (v : Int) then
          ((if sign = true then (-2048 : Int) else 0) + (v : Int)).natAbs
          else 4096 - ((if sign = true then (-2048 : Int) else 0) + (v : Int)).natAbs) =
          (if sign = true then 2048 else 0) + v := by
        cases sign
        · simp
        · rw [if_pos rfl, if_neg (by omega), if_pos rfl]; omega
      rw [hk4, e3 _ (by split <;> omega), e1] at key
      have e4 : ((if sign = true then 2048 else 0) + v) % 2048 = v := by
        cases sign
        · simp; omega
        · simp; omega
      have e5 : decide (((if sign = true then 2048 else 0) + v) / 2048 % 2 = 1) = sign := by
        cases sign
        · simp; omega
        · rw [if_pos rfl, show (2048 + v) / 2048 = 1 by omega]; rfl
      rw [e4, e5, e2] at key
      exact key
  | coef run level =>
    unfold dctTail at h2
    simp only at h2
    obtain ⟨sign, s2, h3, h4⟩ := Go.bind_eq_ok h2
    cases h4
    have took2 := BR.read1_inv h3
    refine ⟨c ++ [sign], took1.trans took2, ?_⟩
    have hpos : level ≠ 0 := by
      have key : ∀ one first, (dctTable one first).all (fun e => match e.2 with | .coef _ l => l != 0 | _ => true) = true := by
        intro a b; cases a <;> cases b <;> decide +kernel
      have := List.all_eq_true.mp (key one (decide (n = 0))) _ hm
      simpa using this
    have key := EventCode.vlc (one := one) (first := decide (n = 0)) (run := run)
      (level := if sign = true then -(level : Int) else (level : Int)) c
      (by rw [show (if sign = true then -(level : Int) else (level : Int)).natAbs = level by split <;> omega]; exact hm')
      (by split <;> omega)
    rw [show decide ((if sign = true then -(level : Int) else (level : Int)) < 0) = sign by
      cases sign <;> simp <;> omega] at key
    exact key

theorem expand_cons (run : Nat) (level : Int) (evs : List (Nat × Int)) :
    expand ((run, level) :: evs) = List.replicate run 0 ++ [level] ++ expand evs := by
  simp [expand]

/-- the block agrees with a list of coefficients up to its length -/
def Agrees (b : Block) (l : List Int) : Prop := ∀ i, i < l.length → b i = l.getD i 0

theorem Agrees.put {b : Block} {l : List Int} (h : Agrees b l) (run : Nat) (level : Int) :
    Agrees (b.put l.length run level) (l ++ (List.replicate run 0 ++ [level])) := by
  intro i hi
  unfold Block.put
  simp only [List.length_append, List.length_replicate, List.length_singleton] at hi
  by_cases h1 : i < l.length
  · rw [if_neg (by omega), if_neg (by omega), h i h1, getD_app_left h1]
  · rw [getD_app_right (by omega)]
    by_cases h2 : i < l.length + run
    · rw [if_pos (by omega), getD_app_left (by simp; omega)]
      simp [List.getD_eq_getElem?_getD, List.getElem?_replicate, show i - l.length < run by omega]
    · rw [if_neg (by omega), if_pos (by omega), getD_app_right (by simp; omega)]
      simp [show i - l.length - run = 0 by omega]

/-- The coefficient loop on coded events. -/
theorem coeffLoop_run (one : Bool) : ∀ (evs : List (Nat × Int)) (fuel : Nat) (l : List Int) (b : Block)
    (bits : List Bool) (r : List Bool) (pos : Nat), CodedEvents one (decide (l.length = 0)) evs bits →
    (one = true → l.length ≠ 0) → Agrees b l → (l ++ expand evs).length ≤ 64 → evs.length ≤ fuel →
    ∃ b', coeffLoop one fuel l.length b ⟨bits ++ r, pos, stop, later⟩ =
        coeffLoop one (fuel - evs.length) (l ++ expand evs).length b' ⟨r, pos + bits.length, stop, later⟩ ∧
      Agrees b' (l ++ expand evs) := by
  intro evs
  induction evs with
  | nil =>
    intro fuel l b bits r pos hc ho ha hl hf
    cases hc
    exact ⟨b, by simp [expand], by simpa [expand] using ha⟩
  | cons ev evs ih =>
    intro fuel l b bits r pos hc ho ha hl hf
    cases hc with
    | cons _ run level _ c bits' h t =>
      cases fuel with
      | zero => simp at hf
      | succ fuel =>
        rw [expand_cons] at hl ⊢
        simp only [List.length_append, List.length_replicate, List.length_singleton] at hl
        have hlen : (l ++ (List.replicate run 0 ++ [level])).length = l.length + run + 1 := by simp; omega
        obtain ⟨b', h1, h2⟩ := ih fuel (l ++ (List.replicate run 0 ++ [level])) (b.put l.length run level) bits' r
          (pos + c.length) (by rw [hlen]; simpa using t) (by rw [hlen]; omega) (ha.put run level)
          (by simp; omega) (by simpa using hf)
        refine ⟨b', ?_, by simpa using h2⟩
        have h3 : coeffLoop one (fuel + 1) l.length b ⟨c ++ bits' ++ r, pos, stop, later⟩ =
            coeffLoop one fuel (l.length + run + 1) (b.put l.length run level)
              ⟨bits' ++ r, pos + c.length, stop, later⟩ := by
          conv => lhs; unfold coeffLoop
          rw [List.append_assoc, Go.bind_ok (event_run ho h)]
          simp only
          rw [if_pos (by omega)]
        rw [h3, ← hlen, h1]
        simp [Nat.add_assoc, Nat.add_comm, Nat.add_left_comm]

end Mpeg.Video
