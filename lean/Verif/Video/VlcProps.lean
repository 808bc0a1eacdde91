/-
C44 and C67: the variable length code tables.
-/
import Verif.Video.VlcLemmas
set_option linter.all false
namespace Mpeg.Video
open Spec

/-- **C44** (decoding): the code word of any entry of a prefix free table, followed by any bits, decodes to the
value of that entry and consumes exactly the code word. -/
theorem C44 {α : Type} (t : Table α) (ht : PrefixFree t) (c : List Bool) (v : α) (hm : (c, v) ∈ t)
    (r : List Bool) (pos : Nat) (stop : Err) (later : List (List Bool × Err)) :
    huffDecode t ⟨c ++ r, pos, stop, later⟩ = (.ok v, ⟨r, pos + c.length, stop, later⟩) :=
  huffDecode_code ht hm r pos stop later

/-- **C44** (tables): every table of the decoder is prefix free. -/
theorem C44_tables :
    PrefixFree addrTable ∧ PrefixFree iTypeTable ∧ PrefixFree pTypeTable ∧ PrefixFree bTypeTable ∧
    PrefixFree cbpTable ∧ PrefixFree motionTable ∧ PrefixFree dcLumaTable ∧ PrefixFree dcChromaTable ∧
    PrefixFree dct0Initial ∧ PrefixFree dct0Rest ∧ PrefixFree dct1Initial ∧ PrefixFree dct1Rest :=
  ⟨pf_addr, pf_iType, pf_pType, pf_bType, pf_cbp, pf_motion, pf_dcLuma, pf_dcChroma, pf_dct0Initial, pf_dct0Rest,
   pf_dct1Initial, pf_dct1Rest⟩

/-- **C44** (all inputs): a decoder either returns the value of an entry whose code word it consumed, or reports
that no code word begins the input, or reports the end of the input; it never panics or loops. -/
theorem C44_total {α : Type} (t : Table α) (ht : PrefixFree t) (hne : t ≠ []) (s : BR) :
    (∃ c v s', huffDecode t s = (.ok v, s') ∧ (c, v) ∈ t ∧ BR.Took s c s') ∨
    (∃ e s', huffDecode t s = (.err e, s') ∧ (e = .missingHuffmanValue ∨ e = s.stop) ∧
      ∀ c v, (c, v) ∈ t → ¬ c <+: s.bits) := by
  have := huffDecode_result (PrefixFree.ne_nil ht) hne s
  generalize hr : huffDecode t s = res at this ⊢
  cases this with
  | ok c v s' h took => exact .inl ⟨c, v, s', rfl, h, took⟩
  | missing p s' took hp h => exact .inr ⟨_, s', rfl, .inl rfl, fun c v hm => (h c v hm).2⟩
  | ended h s1 h1 => exact .inr ⟨_, _, rfl, .inr h1.stop, h⟩

/-- `n` codes in a row. -/
def decodeMany {α : Type} (t : Table α) : Nat → Go BR (List α)
  | 0 => pure []
  | n + 1 => do
    let v ← huffDecode t
    let l ← decodeMany t n
    pure (v :: l)

/-- **C44** (sequences): the concatenation of any number of code words decodes back to exactly those entries. -/
theorem C44_sequence {α : Type} (t : Table α) (ht : PrefixFree t) (es : List (List Bool × α)) (h : ∀ e ∈ es, e ∈ t)
    (r : List Bool) (pos : Nat) (stop : Err) (later : List (List Bool × Err)) :
    decodeMany t es.length ⟨es.flatMap (·.1) ++ r, pos, stop, later⟩ =
      (.ok (es.map (·.2)), ⟨r, pos + (es.flatMap (·.1)).length, stop, later⟩) := by
  induction es generalizing pos with
  | nil => rfl
  | cons e es ih =>
    have h1 := C44 t ht e.1 e.2 (h e (List.mem_cons_self ..)) (es.flatMap (·.1) ++ r) pos stop later
    have h2 := ih (fun e' he' => h e' (List.mem_cons_of_mem _ he')) (pos + e.1.length)
    rw [List.length_cons]
    unfold decodeMany
    rw [List.flatMap_cons, List.append_assoc, Go.bind_ok h1, Go.bind_ok h2]
    simp [Nat.add_assoc]

/-- A nontrivial instance: three coded block patterns in a row. -/
example : decodeMany cbpTable 3 (BR.ofBits [true, true, true, false, true, false, true, true, true, true, false, true,
    true]) = (.ok [60, 1, 4], ⟨[true], 12, .eof, []⟩) := by decide +kernel

/-- No code of Table B.9 starts with nine zeros. -/
example : (decodeCbp (BR.ofBits (List.replicate 20 false))).1 = .err .missingHuffmanValue := by decide +kernel

/-- **C67**: the tables of the decoder have exactly the entries of ISO/IEC 13818-2 Annex B. -/
theorem C67 :
    SameEntries addrTable isoAddress ∧ SameEntries iTypeTable isoTypeI ∧ SameEntries pTypeTable isoTypeP ∧
    SameEntries bTypeTable isoTypeB ∧ SameEntries cbpTable isoCbp ∧ SameEntries motionTable isoMotion ∧
    SameEntries dcLumaTable isoDcLuma ∧ SameEntries dcChromaTable isoDcChroma ∧
    SameEntries dct0Initial isoB14First ∧ SameEntries dct0Rest isoB14 ∧ SameEntries dct1Rest isoB15 :=
  ⟨same_addr, same_iType, same_pType, same_bType, same_cbp, same_motion, same_dcLuma, same_dcChroma, same_b14First,
   same_b14, same_b15⟩

/-- The standard's tables are those in force at the call sites: macroblock types by picture type are checked with
the macroblock layer; here the coefficient tables by `intra_vlc_format` and position. -/
theorem C67_coefficients (one : Bool) (n : Nat) (h : one = true → n ≠ 0) :
    SameEntries (dctTable one (n = 0)) (if one then isoB15 else if n = 0 then isoB14First else isoB14) := by
  cases one
  · by_cases h0 : n = 0
    · simp only [h0, decide_true, Bool.false_eq_true, if_true, if_false]; exact same_b14First
    · simp only [h0, decide_false, Bool.false_eq_true, if_true, if_false]; exact same_b14
  · have h0 := h rfl
    simp only [h0, decide_false, if_true]; exact same_b15

end Mpeg.Video
