/-
All inputs of the block parser; dequantisation and IDCT lemmas.
-/
import Verif.Video.BlockLemmas
set_option linter.all false
namespace Mpeg.Video
open Spec

theorem safe_dctTail : ∀ y, Go.Safe (dctTail y)
  | .eob => .pure _
  | .escape => .bind (BR.safe_read _) fun _ => .bind BR.safe_read1 fun _ => .bind (BR.safe_read _) fun _ => .pure _
  | .coef _ _ => .bind BR.safe_read1 fun _ => .pure _
theorem noninc_dctTail : ∀ y, Go.NonInc BR.size (dctTail y)
  | .eob => .pure _
  | .escape => .bind (BR.noninc_read _) fun _ => .bind BR.noninc_read1 fun _ => .bind (BR.noninc_read _) fun _ => .pure _
  | .coef _ _ => .bind BR.noninc_read1 fun _ => .pure _

theorem safe_dctCoefficient (one : Bool) (n : Nat) : Go.Safe (dctCoefficient one n) :=
  .bind (safe_huffDecode (PrefixFree.ne_nil (pf_dctTable _ _)) (dctTable_ne_nil _ _)) fun y => safe_dctTail y
theorem noninc_dctCoefficient (one : Bool) (n : Nat) : Go.NonInc BR.size (dctCoefficient one n) :=
  .bind (noninc_huffDecode (PrefixFree.ne_nil (pf_dctTable _ _)) (dctTable_ne_nil _ _)) fun y => noninc_dctTail y

theorem safe_readDC (cc : Nat) (p : Int) : Go.Safe (readDC cc p) :=
  .bind (safe_huffDecode (PrefixFree.ne_nil (pf_dc cc)) (dc_ne_nil cc)) fun _ => .bind (BR.safe_read _) fun _ => .pure _
theorem noninc_readDC (cc : Nat) (p : Int) : Go.NonInc BR.size (readDC cc p) :=
  .bind (noninc_huffDecode (PrefixFree.ne_nil (pf_dc cc)) (dc_ne_nil cc)) fun _ =>
    .bind (BR.noninc_read _) fun _ => .pure _

theorem EventCode.ne_nil {one first : Bool} {run : Nat} {level : Int} {c : List Bool}
    (h : EventCode one first run level c) : c ≠ [] := by
  cases h with
  | vlc c h hl => simp
  | escape c h hr hl => intro h; have := congrArg List.length h; simp at this

/-- The coefficient loop never runs out of fuel, and panics only after events that overflow the block. -/
theorem coeffLoop_result (one : Bool) : ∀ (fuel n : Nat) (b : Block) (s : BR), 65 ≤ fuel + n → n ≤ 64 →
    (one = true → n ≠ 0) →
    (coeffLoop one fuel n b s).1 ≠ .hang ∧
    (∀ s', coeffLoop one fuel n b s = (.panic, s') →
      ∃ evs bits, CodedEvents one (decide (n = 0)) evs bits ∧ BR.Took s bits s' ∧ 64 < n + (expand evs).length) := by
  intro fuel
  induction fuel with
  | zero => intro n b s h1 h2; omega
  | succ fuel ih =>
    intro n b s hf hn ho
    unfold coeffLoop
    have hs := safe_dctCoefficient one n s
    cases hd : dctCoefficient one n s with
    | mk res s1 =>
      cases res with
      | hang => rw [hd] at hs; exact absurd rfl hs.2
      | panic => rw [hd] at hs; exact absurd rfl hs.1
      | err e => rw [Go.bind_err hd]; exact ⟨by simp, fun _ h => by cases h⟩
      | ok ev =>
        rw [Go.bind_ok hd]
        obtain ⟨c, took, hc⟩ := event_inv ho hd
        cases ev with
        | eob => exact ⟨by simp, fun _ h => by cases h⟩
        | coef run level =>
          simp only at hc ⊢
          by_cases hlt : n + run < 64
          · rw [if_pos hlt]
            obtain ⟨g1, g2⟩ := ih (n + run + 1) (b.put n run level) s1 (by omega) (by omega) (by omega)
            refine ⟨g1, fun s' h => ?_⟩
            obtain ⟨evs, bits, k1, k2, k3⟩ := g2 s' h
            refine ⟨(run, level) :: evs, c ++ bits, .cons _ _ _ _ _ _ hc ?_, took.trans k2, ?_⟩
            · rw [show decide (n + run + 1 = 0) = false by simp] at k1; exact k1
            · rw [expand_cons]; simp; omega
          · rw [if_neg hlt]
            refine ⟨by simp, fun s' h => ?_⟩
            cases h
            refine ⟨[(run, level)], c, ?_, took, ?_⟩
            · have := CodedEvents.cons (one := one) (decide (n = 0)) run level [] c [] hc (.nil false)
              simpa using this
            · rw [expand_cons]; simp; omega

theorem noninc_coeffLoop (one : Bool) : ∀ (fuel n : Nat) (b : Block), Go.NonInc BR.size (coeffLoop one fuel n b)
  | 0, _, _ => fun s => Nat.le_refl _
  | fuel + 1, n, b => by
    unfold coeffLoop
    refine .bind (noninc_dctCoefficient one n) fun ev => ?_
    cases ev with
    | eob => exact .pure _
    | coef run level =>
      simp only
      exact .ite (noninc_coeffLoop one fuel _ _) .panic

/-- A decoded block: what was read. -/
theorem coeffLoop_ok (one : Bool) : ∀ (fuel n : Nat) (b b' : Block) (s s' : BR), n ≤ 64 →
    (one = true → n ≠ 0) → coeffLoop one fuel n b s = (.ok b', s') →
    ∃ evs bits c, CodedEvents one (decide (n = 0)) evs bits ∧ (c, DctSym.eob) ∈ isoCoef one false ∧
      BR.Took s (bits ++ c) s' ∧ n + (expand evs).length ≤ 64 ∧ (n = 0 → evs ≠ []) ∧
      (∀ i, b' i = if i < n then b i else (expand evs).getD (i - n) 0) := by
  intro fuel
  induction fuel with
  | zero => intro n b b' s s' _ _ h; cases h
  | succ fuel ih =>
    intro n b b' s s' hn ho h
    unfold coeffLoop at h
    obtain ⟨ev, s1, hd, h2⟩ := Go.bind_eq_ok h
    obtain ⟨c, took, hc⟩ := event_inv ho hd
    cases ev with
    | eob =>
      simp only at hc h2
      cases h2
      have hn0 : n ≠ 0 := by
        intro h0
        subst h0
        have h1 : one = false := by
          cases one
          · rfl
          · exact absurd rfl (ho rfl)
        subst h1
        have key : (isoCoef false true).all (fun e => e.2 != .eob) = true := by decide +kernel
        have := List.all_eq_true.mp key _ hc
        simp at this
      have hd0 : decide (n = 0) = false := by simp [hn0]
      rw [hd0] at hc
      refine ⟨[], [], c, .nil _, hc, took, by simpa [expand] using hn, fun h0 => absurd h0 hn0, fun i => ?_⟩
      unfold Block.fill
      by_cases hi : n ≤ i
      · rw [if_pos hi, if_neg (by omega)]; simp [expand]
      · rw [if_neg hi, if_pos (by omega)]
    | coef run level =>
      simp only at hc h2
      by_cases hlt : n + run < 64
      · rw [if_pos hlt] at h2
        obtain ⟨evs, bits, c', k1, k2, k3, k4, k5, k6⟩ := ih (n + run + 1) _ b' s1 s' (by omega) (by omega) h2
        refine ⟨(run, level) :: evs, c ++ bits, c', .cons _ _ _ _ _ _ hc ?_, k2, ?_, ?_, fun _ => by simp, ?_⟩
        · rw [show decide (n + run + 1 = 0) = false by simp] at k1; exact k1
        · rw [List.append_assoc]; exact took.trans k3
        · rw [expand_cons]; simp only [List.length_append, List.length_replicate, List.length_singleton]; omega
        · intro i
          rw [k6 i, expand_cons]
          unfold Block.put
          by_cases h1 : i < n
          · rw [if_pos (by omega), if_neg (by omega), if_neg (by omega), if_pos h1]
          · rw [if_neg h1]
            by_cases h3 : i < n + run
            · rw [if_pos (by omega), if_pos (by omega), List.append_assoc, getD_app_left (by simp; omega)]
              simp [List.getD_eq_getElem?_getD, List.getElem?_replicate, show i - n < run by omega]
            · by_cases h4 : i = n + run
              · rw [if_pos (by omega), if_neg (by omega), if_pos h4, getD_app_left (by simp; omega),
                  getD_app_right (by simp; omega)]
                simp [show i - n - run = 0 by omega]
              · rw [if_neg (by omega), getD_app_right (by simp; omega)]
                congr 1; simp; omega
      · rw [if_neg hlt] at h2; cases h2

/-- Events that do not fit make the loop panic. -/
theorem coeffLoop_overflow {stop : Err} {later : List (List Bool × Err)} (one : Bool) :
    ∀ (evs : List (Nat × Int)) (fuel n : Nat) (b : Block) (bits r : List Bool) (pos : Nat),
    CodedEvents one (decide (n = 0)) evs bits → (one = true → n ≠ 0) → n ≤ 64 → 65 ≤ fuel + n →
    64 < n + (expand evs).length →
    ∃ s', coeffLoop one fuel n b ⟨bits ++ r, pos, stop, later⟩ = (.panic, s') := by
  intro evs
  induction evs with
  | nil => intro fuel n b bits r pos hc ho hn hf hl; simp [expand] at hl; omega
  | cons ev evs ih =>
    intro fuel n b bits r pos hc ho hn hf hl
    cases hc with
    | cons _ run level _ c bits' h t =>
      rw [expand_cons] at hl
      simp only [List.length_append, List.length_replicate, List.length_singleton] at hl
      cases fuel with
      | zero => omega
      | succ fuel =>
        unfold coeffLoop
        rw [List.append_assoc, Go.bind_ok (event_run ho h)]
        simp only
        by_cases hlt : n + run < 64
        · rw [if_pos hlt]
          exact ih fuel (n + run + 1) _ bits' r _ (by simpa using t) (by omega) (by omega) (by omega) (by omega)
        · rw [if_neg hlt]; exact ⟨_, rfl⟩

/-! ### ranges -/

theorem event_level {one first : Bool} {run : Nat} {level : Int} {c : List Bool}
    (h : EventCode one first run level c) : -2048 ≤ level ∧ level < 2048 := by
  cases h with
  | vlc c h hl =>
    have key : ∀ one first, (isoCoef one first).all
        (fun e => match e.2 with | .coef _ l => decide (l < 2048) | _ => true) = true := by
      intro a b; cases a <;> cases b <;> decide +kernel
    have := List.all_eq_true.mp (key one first) _ h
    simp only [decide_eq_true_eq] at this
    omega
  | escape c h hr hl => exact hl

theorem expand_level {one first : Bool} {evs : List (Nat × Int)} {bits : List Bool}
    (h : CodedEvents one first evs bits) : ∀ x ∈ expand evs, -2048 ≤ x ∧ x < 2048 := by
  induction h with
  | nil => simp [expand]
  | cons first run level evs c l h t ih =>
    intro x hx
    rw [expand_cons] at hx
    simp only [List.mem_append, List.mem_replicate, List.mem_singleton] at hx
    rcases hx with (⟨_, rfl⟩ | rfl) | hx
    · omega
    · exact event_level h
    · exact ih x hx

end Mpeg.Video
