/-
Execution of the Huffman decoder.
-/
import Verif.Video.VlcModel
import Verif.Video.VlcSpec
import Verif.Video.HeaderTotal
set_option linter.all false
namespace Mpeg.Video
open Spec
variable {α : Type}

def sameB [DecidableEq α] (t u : Table α) : Bool :=
  t.all (fun e => u.contains e) && u.all (fun e => t.contains e)

theorem same_of_b [DecidableEq α] {t u : Table α} (h : sameB t u = true) : SameEntries t u := by
  unfold sameB at h
  rw [Bool.and_eq_true, List.all_eq_true, List.all_eq_true] at h
  intro e
  exact ⟨fun he => by simpa using h.1 e he, fun he => by simpa using h.2 e he⟩

theorem mem_next {t : Table α} {b : Bool} {c : List Bool} {v : α} :
    (c, v) ∈ t.next b ↔ (b :: c, v) ∈ t := by
  unfold Table.next
  rw [List.mem_filterMap]
  constructor
  · rintro ⟨⟨d, w⟩, hm, h⟩
    cases d with
    | nil => simp at h
    | cons x d =>
      simp only at h
      split at h
      · rename_i hx
        simp only [Option.some.injEq, Prod.mk.injEq] at h
        obtain ⟨rfl, rfl⟩ := h
        rw [← hx]; exact hm
      · simp at h
  · intro h
    exact ⟨(b :: c, v), h, by simp⟩

theorem hit_some {t : Table α} {v : α} (h : t.hit = some v) : ([], v) ∈ t := by
  unfold Table.hit at h
  rw [Option.map_eq_some_iff] at h
  obtain ⟨⟨c, w⟩, hf, rfl⟩ := h
  have h1 := List.mem_of_find?_eq_some hf
  have h2 := List.find?_some hf
  simp only [List.isEmpty_iff] at h2
  simp only at h2 ⊢
  rw [h2] at h1; exact h1

theorem hit_none {t : Table α} (h : t.hit = none) (v : α) : ([], v) ∉ t := by
  unfold Table.hit at h
  rw [Option.map_eq_none_iff, List.find?_eq_none] at h
  intro hm
  have := h _ hm
  simp at this

/-- Check of `PrefixFree` bit by bit: a table of more than one entry has no empty code word, and neither half has. -/
def pfTree : Nat → Table α → Bool
  | _, [] => true
  | _, [_] => true
  | 0, _ => false
  | f + 1, t => t.hit.isNone && pfTree f (t.next false) && pfTree f (t.next true)

theorem pfTree_sound (f : Nat) : ∀ t : Table α, pfTree f t = true →
    ∀ e ∈ t, ∀ e' ∈ t, e.1 <+: e'.1 → e = e' := by
  have step : ∀ t : Table α, t.hit.isNone = true → (∀ b, ∀ e ∈ t.next b, ∀ e' ∈ t.next b, e.1 <+: e'.1 → e = e') →
      ∀ e ∈ t, ∀ e' ∈ t, e.1 <+: e'.1 → e = e' := by
    rintro t hn hs ⟨c, v⟩ he ⟨c', v'⟩ he' hp
    have hn' : t.hit = none := by simpa using hn
    cases c with
    | nil => exact absurd he (hit_none hn' v)
    | cons x c =>
      cases c' with
      | nil => exact absurd he' (hit_none hn' v')
      | cons x' c' =>
        simp only [List.cons_prefix_cons] at hp
        obtain ⟨rfl, hp⟩ := hp
        have := hs x _ (mem_next.mpr he) _ (mem_next.mpr he') hp
        simpa using this
  induction f with
  | zero =>
    intro t h
    match t, h with
    | [], _ => intro e he; simp at he
    | [a], _ => intro e he e' he' _; simp at he he'; rw [he, he']
  | succ f ih =>
    intro t h
    match t, h with
    | [], _ => intro e he; simp at he
    | [a], _ => intro e he e' he' _; simp at he he'; rw [he, he']
    | a :: a' :: t, h =>
      unfold pfTree at h
      simp only [Bool.and_eq_true] at h
      exact step _ h.1.1 fun b => (by cases b; exact ih _ h.1.2; exact ih _ h.2)

theorem prefixFree_of_b {t : Table α} (h : (t.hit.isNone && pfTree 20 t) = true) : PrefixFree t := by
  rw [Bool.and_eq_true] at h
  refine fun e he => ⟨fun hn => ?_, pfTree_sound 20 t h.2 e he⟩
  obtain ⟨c, v⟩ := e
  simp only at hn; subst hn
  exact hit_none (by simpa using h.1) v he

theorem same_of_perm {t u : Table α} (p q : List Nat) (h : t.map some = p.map (fun i => u[i]?))
    (h' : u.map some = q.map (fun i => t[i]?)) : SameEntries t u := by
  have key : ∀ (t u : Table α) (p : List Nat), t.map some = p.map (fun i => u[i]?) → ∀ e, e ∈ t → e ∈ u := by
    intro t u p h e he
    have : some e ∈ t.map some := List.mem_map.mpr ⟨e, he, rfl⟩
    rw [h, List.mem_map] at this
    obtain ⟨i, _, hi⟩ := this
    exact List.mem_of_getElem? hi
  exact fun e => ⟨key t u p h e, key u t q h' e⟩

theorem maxLen_ge {t : Table α} {c : List Bool} {v : α} (h : (c, v) ∈ t) : c.length ≤ t.maxLen := by
  unfold Table.maxLen
  induction t with
  | nil => simp at h
  | cons e t ih =>
    rw [List.foldr_cons]
    rcases List.mem_cons.mp h with rfl | h
    · exact Nat.le_max_left _ _
    · exact Nat.le_trans (ih h) (Nat.le_max_right _ _)

theorem maxLen_le {t : Table α} {n : Nat} (h : ∀ c v, (c, v) ∈ t → c.length ≤ n) : t.maxLen ≤ n := by
  unfold Table.maxLen
  induction t with
  | nil => simp
  | cons e t ih =>
    rw [List.foldr_cons]
    exact Nat.max_le.mpr ⟨h e.1 e.2 (List.mem_cons_self ..), ih fun c v hm => h c v (List.mem_cons_of_mem _ hm)⟩

/-- Code words that do not end here make a table of shorter code words. -/
theorem prefixFree_next {t : Table α} (h : PrefixFree t) (b : Bool) (hn : (t.next b).hit = none) :
    PrefixFree (t.next b) := by
  rintro ⟨c, v⟩ he
  refine ⟨fun hc => ?_, ?_⟩
  · simp only at hc; subst hc; exact hit_none hn v he
  · rintro ⟨c', v'⟩ he' hp
    have := (h (b :: c, v) (mem_next.mp he)).2 (b :: c', v') (mem_next.mp he')
      (by simpa [List.cons_prefix_cons] using hp)
    simpa using this

theorem huffLoop_code (f : Nat) : ∀ (t : Table α), PrefixFree t → ∀ (c : List Bool) (v : α), (c, v) ∈ t →
    c.length ≤ f → ∀ (r : List Bool) (pos : Nat) (stop : Err) (later : List (List Bool × Err)),
    huffLoop f t ⟨c ++ r, pos, stop, later⟩ = (.ok v, ⟨r, pos + c.length, stop, later⟩) := by
  induction f with
  | zero =>
    intro t ht c v hm hl
    exact absurd (List.length_eq_zero_iff.mp (Nat.le_zero.mp hl)) (ht _ hm).1
  | succ f ih =>
    intro t ht c v hm hl r pos stop later
    cases c with
    | nil => exact absurd rfl (ht _ hm).1
    | cons b c =>
      unfold huffLoop
      rw [List.cons_append, Go.bind_ok (BR.read1_cons b)]
      have hm' := mem_next.mpr hm
      cases hh : (t.next b).hit with
      | some w =>
        have hw := mem_next.mp (hit_some hh)
        have := (ht _ hw).2 _ hm (by simp [List.cons_prefix_cons])
        simp only [Prod.mk.injEq, List.cons.injEq, true_and] at this
        obtain ⟨hc, rfl⟩ := this
        subst hc
        simp
      | none =>
        have hne : (t.next b).isEmpty = false := by
          cases h : t.next b with
          | nil => rw [h] at hm'; simp at hm'
          | cons => rfl
        simp only [hne]
        simp only [List.length_cons] at hl
        rw [if_neg (by simp), ih _ (prefixFree_next ht b hh) c v hm' (by omega)]
        simp; omega

/-- Decoding the code word of an entry, whatever follows. -/
theorem huffDecode_code {t : Table α} (ht : PrefixFree t) {c : List Bool} {v : α} (hm : (c, v) ∈ t)
    (r : List Bool) (pos : Nat) (stop : Err) (later : List (List Bool × Err)) :
    huffDecode t ⟨c ++ r, pos, stop, later⟩ = (.ok v, ⟨r, pos + c.length, stop, later⟩) :=
  huffLoop_code _ t ht c v hm (maxLen_ge hm) r pos stop later

/-- What a decoder can do on any input. -/
inductive HuffResult (t : Table α) (s : BR) : Res α × BR → Prop
  | ok (c : List Bool) (v : α) (s' : BR) (h : (c, v) ∈ t) (took : BR.Took s c s') : HuffResult t s (.ok v, s')
  | missing (p : List Bool) (s' : BR) (took : BR.Took s p s') (hp : p ≠ [])
      (h : ∀ c v, (c, v) ∈ t → ¬ p <+: c ∧ ¬ c <+: s.bits) : HuffResult t s (.err .missingHuffmanValue, s')
  | ended (h : ∀ c v, (c, v) ∈ t → ¬ c <+: s.bits) (s1 : BR) (h1 : BR.Took s s.bits s1) :
      HuffResult t s (.err s1.stop, s1.failTo)

theorem huffLoop_result (f : Nat) : ∀ (t : Table α), (∀ c v, (c, v) ∈ t → c ≠ []) → t ≠ [] →
    (∀ c v, (c, v) ∈ t → c.length ≤ f) → ∀ s, HuffResult t s (huffLoop f t s) := by
  induction f with
  | zero =>
    intro t ht hne hl s
    obtain ⟨⟨c, v⟩, t', rfl⟩ := List.exists_cons_of_ne_nil hne
    exact absurd (List.length_eq_zero_iff.mp (Nat.le_zero.mp (hl c v (List.mem_cons_self ..))))
      (ht c v (List.mem_cons_self ..))
  | succ f ih =>
    intro t ht hne hl s
    unfold huffLoop
    cases hb : s.bits with
    | nil =>
      rw [Go.bind_err (BR.read1_short (by simp [hb]))]
      have : s.failErr = s.stop := by simp [BR.failErr, hb]
      rw [this]
      refine .ended (fun c v hm => ?_) s ?_
      · rw [hb, List.prefix_nil]; exact ht c v hm
      · rw [hb]; exact BR.Took.refl s
    | cons b l =>
      have h1 : BR.read1 s = (.ok b, s.adv 1) := by simp [BR.read1, hb]
      have took1 : BR.Took s [b] (s.adv 1) := BR.read1_inv h1
      have hbits : (s.adv 1).bits = l := by have := took1.bits; rw [hb] at this; simpa using this.symm
      rw [Go.bind_ok h1]
      cases hh : (t.next b).hit with
      | some w => exact .ok [b] w _ (mem_next.mp (hit_some hh)) took1
      | none =>
        simp only
        have hnn : ∀ c v, (c, v) ∈ t.next b → c ≠ [] := by
          intro c v hm hc; subst hc; exact hit_none hh v hm
        cases he : (t.next b).isEmpty with
        | true =>
          rw [if_pos rfl]
          refine .missing [b] _ took1 (by simp) (fun c v hm => ⟨fun hp => ?_, fun hp => ?_⟩)
          · cases c with
            | nil => exact ht _ _ hm rfl
            | cons x c =>
              rw [List.cons_prefix_cons] at hp
              have := mem_next.mpr (hp.1 ▸ hm : (b :: c, v) ∈ t)
              rw [List.isEmpty_iff.mp he] at this; simp at this
          · cases c with
            | nil => exact ht _ _ hm rfl
            | cons x c =>
              rw [hb, List.cons_prefix_cons] at hp
              have := mem_next.mpr (hp.1 ▸ hm : (b :: c, v) ∈ t)
              rw [List.isEmpty_iff.mp he] at this; simp at this
        | false =>
          rw [if_neg (by simp)]
          have hne' : t.next b ≠ [] := by intro h; rw [h] at he; simp at he
          have := ih (t.next b) hnn hne' (fun c v hm => by
            have := hl _ _ (mem_next.mp hm); simp at this; omega) (s.adv 1)
          generalize huffLoop f (t.next b) (s.adv 1) = res at this ⊢
          have lift : ∀ c v, (c, v) ∈ t → (∀ c' v', (c', v') ∈ t.next b → ¬ c' <+: (s.adv 1).bits) →
              ¬ c <+: s.bits := by
            intro c v hm hno hp
            cases c with
            | nil => exact ht _ _ hm rfl
            | cons x c =>
              rw [hb, List.cons_prefix_cons] at hp
              exact hno c v (mem_next.mpr (hp.1 ▸ hm)) (hbits ▸ hp.2)
          cases this with
          | ok c v s' h took => exact .ok (b :: c) v s' (mem_next.mp h) (took1.trans took)
          | missing p s' took hp h =>
            refine .missing (b :: p) s' (took1.trans took) (by simp) (fun c v hm => ⟨?_, ?_⟩)
            · intro hp'
              cases c with
              | nil => exact ht _ _ hm rfl
              | cons x c =>
                rw [List.cons_prefix_cons] at hp'
                exact (h c v (mem_next.mpr (hp'.1 ▸ hm))).1 hp'.2
            · exact lift c v hm (fun c' v' h' => (h c' v' h').2)
          | ended h s1 h1 =>
            refine .ended (fun c v hm => lift c v hm h) s1 ?_
            have := took1.trans h1
            rw [hbits] at this
            rw [hb]; exact this

theorem huffDecode_result {t : Table α} (ht : ∀ c v, (c, v) ∈ t → c ≠ []) (hne : t ≠ []) (s : BR) :
    HuffResult t s (huffDecode t s) :=
  huffLoop_result _ t ht hne (fun _ _ h => maxLen_ge h) s

theorem PrefixFree.ne_nil {t : Table α} (h : PrefixFree t) : ∀ c v, (c, v) ∈ t → c ≠ [] :=
  fun _ _ hm => (h _ hm).1

theorem safe_huffDecode {t : Table α} (ht : ∀ c v, (c, v) ∈ t → c ≠ []) (hne : t ≠ []) :
    Go.Safe (huffDecode t) := by
  intro s
  have := huffDecode_result ht hne s
  generalize huffDecode t s = r at this ⊢
  cases this <;> simp

theorem size_took {s s' : BR} {l : List Bool} (h : BR.Took s l s') : s'.size + l.length = s.size := by
  have h2 : s' = s.adv l.length := by
    have hb := h.bits; have hp := h.pos; have h3 := h.stop; have h4 := h.later
    cases s; cases s'
    simp only [BR.adv] at *
    subst hb hp h3 h4
    simp
  rw [h2]
  exact BR.size_adv_lt s (by rw [h.bits, List.length_append]; omega)

theorem noninc_huffDecode {t : Table α} (ht : ∀ c v, (c, v) ∈ t → c ≠ []) (hne : t ≠ []) :
    Go.NonInc BR.size (huffDecode t) := by
  intro s
  have := huffDecode_result ht hne s
  generalize huffDecode t s = r at this ⊢
  cases this with
  | ok c v s' h took => have := size_took took; simp only; omega
  | missing p s' took hp h => have := size_took took; simp only; omega
  | ended h s1 h1 =>
    have := size_took h1
    have := BR.size_failTo s1
    simp only; omega

theorem huffDecode_inv {t : Table α} (ht : ∀ c v, (c, v) ∈ t → c ≠ []) (hne : t ≠ []) {s s' : BR} {v : α}
    (h : huffDecode t s = (.ok v, s')) : ∃ c, (c, v) ∈ t ∧ BR.Took s c s' := by
  have := huffDecode_result ht hne s
  rw [h] at this
  cases this with
  | ok c v s' h took => exact ⟨c, h, took⟩

/-! ### the tables of the decoder -/

theorem pf_addr : PrefixFree addrTable := prefixFree_of_b (by decide +kernel)
theorem pf_iType : PrefixFree iTypeTable := prefixFree_of_b (by decide +kernel)
theorem pf_pType : PrefixFree pTypeTable := prefixFree_of_b (by decide +kernel)
theorem pf_bType : PrefixFree bTypeTable := prefixFree_of_b (by decide +kernel)
theorem pf_cbp : PrefixFree cbpTable := prefixFree_of_b (by decide +kernel)
theorem pf_motion : PrefixFree motionTable := prefixFree_of_b (by decide +kernel)
theorem pf_dcLuma : PrefixFree dcLumaTable := prefixFree_of_b (by decide +kernel)
theorem pf_dcChroma : PrefixFree dcChromaTable := prefixFree_of_b (by decide +kernel)
theorem pf_dct0Initial : PrefixFree dct0Initial := prefixFree_of_b (by decide +kernel)
theorem pf_dct0Rest : PrefixFree dct0Rest := prefixFree_of_b (by decide +kernel)
theorem pf_dct1Initial : PrefixFree dct1Initial := prefixFree_of_b (by decide +kernel)
theorem pf_dct1Rest : PrefixFree dct1Rest := prefixFree_of_b (by decide +kernel)

theorem pf_dctTable (one first : Bool) : PrefixFree (dctTable one first) := by
  cases one <;> cases first
  · exact pf_dct0Rest
  · exact pf_dct0Initial
  · exact pf_dct1Rest
  · exact pf_dct1Initial

theorem same_addr : SameEntries addrTable isoAddress := same_of_perm
      [0, 1, 2, 3, 4, 5, 6, 7, 8, 9, 10, 11, 12, 13, 14, 15, 16, 17, 18, 19, 20, 21, 22, 23, 24, 25, 26, 27, 28, 29,
      30, 31, 32]
      [0, 1, 2, 3, 4, 5, 6, 7, 8, 9, 10, 11, 12, 13, 14, 15, 16, 17, 18, 19, 20, 21, 22, 23, 24, 25, 26, 27, 28, 29,
      30, 31, 32]
      (by decide +kernel) (by decide +kernel)
theorem same_iType : SameEntries iTypeTable isoTypeI := same_of_b (by decide +kernel)
theorem same_pType : SameEntries pTypeTable isoTypeP := same_of_b (by decide +kernel)
theorem same_bType : SameEntries bTypeTable isoTypeB := same_of_b (by decide +kernel)
theorem same_cbp : SameEntries cbpTable isoCbp := same_of_perm
      [60, 4, 8, 16, 32, 12, 48, 20, 40, 28, 44, 52, 56, 1, 61, 2, 62, 24, 36, 3, 63, 5, 9, 17, 33, 6, 10, 18, 34,
      7, 11, 19, 35, 13, 49, 21, 41, 14, 50, 22, 42, 15, 51, 23, 43, 25, 37, 26, 38, 29, 45, 53, 57, 30, 46, 54, 58,
      31, 47, 55, 59, 27, 39, 0]
      [63, 13, 15, 19, 1, 21, 25, 29, 2, 22, 26, 30, 5, 33, 37, 41, 3, 23, 27, 31, 7, 35, 39, 43, 17, 45, 47, 61, 9,
      49, 53, 57, 4, 24, 28, 32, 18, 46, 48, 62, 8, 36, 40, 44, 10, 50, 54, 58, 6, 34, 38, 42, 11, 51, 55, 59, 12,
      52, 56, 60, 0, 14, 16, 20]
      (by decide +kernel) (by decide +kernel)
theorem same_motion : SameEntries motionTable isoMotion := same_of_perm
      [32, 30, 28, 26, 24, 22, 20, 18, 16, 14, 12, 10, 8, 6, 4, 2, 0, 1, 3, 5, 7, 9, 11, 13, 15, 17, 19, 21, 23, 25,
      27, 29, 31]
      [16, 17, 15, 18, 14, 19, 13, 20, 12, 21, 11, 22, 10, 23, 9, 24, 8, 25, 7, 26, 6, 27, 5, 28, 4, 29, 3, 30, 2,
      31, 1, 32, 0]
      (by decide +kernel) (by decide +kernel)
theorem same_dcLuma : SameEntries dcLumaTable isoDcLuma := same_of_b (by decide +kernel)
theorem same_dcChroma : SameEntries dcChromaTable isoDcChroma := same_of_b (by decide +kernel)
theorem same_b14First : SameEntries dct0Initial isoB14First := same_of_perm
      [1, 41, 2, 59, 3, 64, 68, 42, 71, 74, 77, 4, 60, 79, 81, 0, 5, 6, 43, 65, 83, 85, 87, 89, 7, 44, 61, 69, 72,
      91, 93, 95, 8, 9, 10, 11, 45, 62, 66, 70, 75, 78, 80, 97, 98, 99, 100, 101, 12, 13, 14, 15, 46, 47, 63, 67,
      73, 82, 84, 102, 103, 104, 105, 106, 16, 17, 18, 19, 20, 21, 22, 23, 24, 25, 26, 27, 28, 29, 30, 31, 32, 33,
      34, 35, 36, 37, 38, 39, 40, 48, 49, 50, 51, 52, 53, 54, 55, 56, 57, 58, 76, 86, 88, 90, 92, 94, 96, 107, 108,
      109, 110, 111]
      [15, 0, 2, 4, 11, 16, 17, 24, 32, 33, 34, 35, 48, 49, 50, 51, 64, 65, 66, 67, 68, 69, 70, 71, 72, 73, 74, 75,
      76, 77, 78, 79, 80, 81, 82, 83, 84, 85, 86, 87, 88, 1, 7, 18, 25, 36, 52, 53, 89, 90, 91, 92, 93, 94, 95, 96,
      97, 98, 99, 3, 12, 26, 37, 54, 5, 19, 38, 55, 6, 27, 39, 8, 28, 56, 9, 40, 100, 10, 41, 13, 42, 14, 57, 20,
      58, 21, 101, 22, 102, 23, 103, 29, 104, 30, 105, 31, 106, 43, 44, 45, 46, 47, 59, 60, 61, 62, 63, 107, 108,
      109, 110, 111]
      (by decide +kernel) (by decide +kernel)
theorem same_b14 : SameEntries dct0Rest isoB14 := same_of_perm
      [0, 2, 42, 3, 60, 4, 65, 69, 43, 72, 75, 78, 5, 61, 80, 82, 1, 6, 7, 44, 66, 84, 86, 88, 90, 8, 45, 62, 70,
      73, 92, 94, 96, 9, 10, 11, 12, 46, 63, 67, 71, 76, 79, 81, 98, 99, 100, 101, 102, 13, 14, 15, 16, 47, 48, 64,
      68, 74, 83, 85, 103, 104, 105, 106, 107, 17, 18, 19, 20, 21, 22, 23, 24, 25, 26, 27, 28, 29, 30, 31, 32, 33,
      34, 35, 36, 37, 38, 39, 40, 41, 49, 50, 51, 52, 53, 54, 55, 56, 57, 58, 59, 77, 87, 89, 91, 93, 95, 97, 108,
      109, 110, 111, 112]
      [0, 16, 1, 3, 5, 12, 17, 18, 25, 33, 34, 35, 36, 49, 50, 51, 52, 65, 66, 67, 68, 69, 70, 71, 72, 73, 74, 75,
      76, 77, 78, 79, 80, 81, 82, 83, 84, 85, 86, 87, 88, 89, 2, 8, 19, 26, 37, 53, 54, 90, 91, 92, 93, 94, 95, 96,
      97, 98, 99, 100, 4, 13, 27, 38, 55, 6, 20, 39, 56, 7, 28, 40, 9, 29, 57, 10, 41, 101, 11, 42, 14, 43, 15, 58,
      21, 59, 22, 102, 23, 103, 24, 104, 30, 105, 31, 106, 32, 107, 44, 45, 46, 47, 48, 60, 61, 62, 63, 64, 108,
      109, 110, 111, 112]
      (by decide +kernel) (by decide +kernel)
theorem same_b15 : SameEntries dct1Rest isoB15 := same_of_perm
      [0, 2, 42, 3, 60, 4, 65, 69, 43, 72, 75, 78, 5, 61, 80, 82, 1, 6, 7, 44, 66, 84, 86, 88, 90, 8, 45, 62, 70,
      73, 92, 94, 96, 9, 10, 11, 12, 46, 63, 67, 71, 76, 79, 81, 98, 99, 100, 101, 102, 13, 14, 15, 16, 47, 48, 64,
      68, 74, 83, 85, 103, 104, 105, 106, 107, 17, 18, 19, 20, 21, 22, 23, 24, 25, 26, 27, 28, 29, 30, 31, 32, 33,
      34, 35, 36, 37, 38, 39, 40, 41, 49, 50, 51, 52, 53, 54, 55, 56, 57, 58, 59, 77, 87, 89, 91, 93, 95, 97, 108,
      109, 110, 111, 112]
      [0, 16, 1, 3, 5, 12, 17, 18, 25, 33, 34, 35, 36, 49, 50, 51, 52, 65, 66, 67, 68, 69, 70, 71, 72, 73, 74, 75,
      76, 77, 78, 79, 80, 81, 82, 83, 84, 85, 86, 87, 88, 89, 2, 8, 19, 26, 37, 53, 54, 90, 91, 92, 93, 94, 95, 96,
      97, 98, 99, 100, 4, 13, 27, 38, 55, 6, 20, 39, 56, 7, 28, 40, 9, 29, 57, 10, 41, 101, 11, 42, 14, 43, 15, 58,
      21, 59, 22, 102, 23, 103, 24, 104, 30, 105, 31, 106, 32, 107, 44, 45, 46, 47, 48, 60, 61, 62, 63, 64, 108,
      109, 110, 111, 112]
      (by decide +kernel) (by decide +kernel)

end Mpeg.Video
