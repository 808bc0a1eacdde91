/-
C45 to C50, C52: coded blocks.
-/
import Verif.Video.BlockLemmas2
set_option linter.all false
namespace Mpeg.Video
open Spec

variable {stop : Err} {later : List (List Bool × Err)}

/-! ### C45 -/

/-- **C45**: the size code and differential of every difference decode to the predictor plus the difference. -/
theorem C45 (cc : Nat) (pred d : Int) (hp : -2 ^ 31 ≤ pred + d ∧ pred + d < 2 ^ 31) (c : List Bool)
    (hc : (c, dcSizeOf d) ∈ isoDc cc) (r : List Bool) (pos : Nat) :
    readDC cc pred ⟨c ++ dcBits d ++ r, pos, stop, later⟩ =
      (.ok (pred + d), ⟨r, pos + (c ++ dcBits d).length, stop, later⟩) := by
  unfold readDC dcSize
  rw [List.append_assoc, Go.bind_ok (huffDecode_code (pf_dc cc) (isoDc_mem hc) _ pos stop later)]
  unfold dcBits
  rw [Go.bind_ok (BR.read_bitsOf _ _), dcDiff_bits, i32_of_range hp.1 hp.2]
  simp [Nat.add_assoc]

/-- Every difference in [-2047, 2047] has a size code, for luma and for chroma. -/
theorem C45_codes (cc : Nat) (d : Int) (h : -2047 ≤ d ∧ d ≤ 2047) : ∃ c, (c, dcSizeOf d) ∈ isoDc cc := by
  have h12 : dcSizeOf d < 12 := by
    unfold dcSizeOf magnitudeBits
    split
    · omega
    · rename_i h0
      have : Nat.log2 d.natAbs < 11 := (Nat.log2_lt h0).mpr (by omega)
      omega
  have key : ∀ n < 12, (isoDcLuma.any (fun e => e.2 == n) && isoDcChroma.any (fun e => e.2 == n)) = true := by
    decide +kernel
  have := key _ h12
  rw [Bool.and_eq_true, List.any_eq_true, List.any_eq_true] at this
  obtain ⟨⟨e1, m1, h1⟩, ⟨e2, m2, h2⟩⟩ := this
  simp only [beq_iff_eq] at h1 h2
  unfold isoDc
  split
  · exact ⟨e1.1, by rw [← h1]; exact m1⟩
  · exact ⟨e2.1, by rw [← h2]; exact m2⟩

/-- The difference -5 of a luma block after the predictor 128: size 3 (`101`), differential `010`. -/
example : readDC 0 128 (BR.ofBits [true, false, true, false, true, false, true]) =
    (.ok 123, ⟨[true], 6, .eof, []⟩) := by decide +kernel

/-! ### C46 -/

theorem expand_length_ge (evs : List (Nat × Int)) : evs.length ≤ (expand evs).length := by
  induction evs with
  | nil => simp
  | cons e evs ih => obtain ⟨a, b⟩ := e; rw [expand_cons]; simp; omega

/-- **C46**, non-intra blocks. -/
theorem C46_nonintra (evs : List (Nat × Int)) (bits c : List Bool) (hev : evs ≠ [])
    (hc : CodedEvents false true evs bits) (he : (c, DctSym.eob) ∈ isoB14) (hl : (expand evs).length ≤ 64)
    (b : Block) (p : DcPred) (format cc : Nat) (r : List Bool) (pos : Nat) :
    ∃ out, readBlock b p format cc false ⟨bits ++ c ++ r, pos, stop, later⟩ =
        (.ok (out, p), ⟨r, pos + (bits ++ c).length, stop, later⟩) ∧
      ∀ i, i < 64 → out i = (expand evs).getD i 0 := by
  have hle := expand_length_ge evs
  obtain ⟨b', h1, h2⟩ := coeffLoop_run (stop := stop) (later := later) false evs 65 [] b bits (c ++ r) pos (by simpa using hc)
    (by simp) (fun i hi => absurd hi (by simp)) (by simpa using hl) (by omega)
  simp only [List.nil_append, List.length_nil] at h1 h2
  have hne : (expand evs).length ≠ 0 := by
    have : evs.length ≠ 0 := fun h => hev (List.length_eq_zero_iff.mp h)
    omega
  obtain ⟨f, hf⟩ : ∃ f, 65 - evs.length = f + 1 := ⟨65 - evs.length - 1, by omega⟩
  have h3 : coeffLoop false 65 0 b ⟨bits ++ c ++ r, pos, stop, later⟩ =
      (.ok (b'.fill (expand evs).length), ⟨r, pos + (bits ++ c).length, stop, later⟩) := by
    rw [List.append_assoc, h1, hf]
    unfold coeffLoop
    rw [Go.bind_ok (eob_run hne he)]
    simp [Nat.add_assoc]
  refine ⟨b'.fill (expand evs).length, ?_, ?_⟩
  · unfold readBlock
    rw [if_neg (by simp), Go.bind_ok h3]; rfl
  · intro i hi
    unfold Block.fill
    split
    · rename_i h; simp [List.getD_eq_getElem?_getD, List.getElem?_eq_none h]
    · exact h2 i (by omega)

/-- **C46**, intra blocks: the DC difference, then events in table zero or one. -/
theorem C46_intra (d : Int) (cc : Nat) (p : DcPred) (hp : -2 ^ 31 ≤ p.get cc + d ∧ p.get cc + d < 2 ^ 31)
    (cd : List Bool) (hcd : (cd, dcSizeOf d) ∈ isoDc cc)
    (format : Nat) (evs : List (Nat × Int)) (bits c : List Bool)
    (hc : CodedEvents (format == 1) false evs bits) (he : (c, DctSym.eob) ∈ isoCoef (format == 1) false)
    (hl : (expand evs).length ≤ 63) (b : Block) (r : List Bool) (pos : Nat) :
    ∃ out, readBlock b p format cc true ⟨(cd ++ dcBits d) ++ bits ++ c ++ r, pos, stop, later⟩ =
        (.ok (out, p.set cc (p.get cc + d)),
          ⟨r, pos + ((cd ++ dcBits d) ++ bits ++ c).length, stop, later⟩) ∧
      ∀ i, i < 64 → out i = ((p.get cc + d) :: expand evs).getD i 0 := by
  have hle := expand_length_ge evs
  have h0 := C45 (stop := stop) (later := later) cc (p.get cc) d hp cd hcd (bits ++ c ++ r) pos
  obtain ⟨b', h1, h2⟩ := coeffLoop_run (stop := stop) (later := later) (format == 1) evs 65 [p.get cc + d]
    (fun i => if i = 0 then p.get cc + d else b i) bits (c ++ r)
    (pos + (cd ++ dcBits d).length) (by simpa using hc)
    (by simp) (fun i hi => by simp at hi; subst hi; simp) (by simp; omega) (by omega)
  obtain ⟨f, hf⟩ : ∃ f, 65 - evs.length = f + 1 := ⟨65 - evs.length - 1, by omega⟩
  have h3 : coeffLoop (format == 1) 65 1 (fun i => if i = 0 then p.get cc + d else b i)
        ⟨bits ++ c ++ r, pos + (cd ++ dcBits d).length, stop, later⟩ =
      (.ok (b'.fill ([p.get cc + d] ++ expand evs).length),
        ⟨r, pos + ((cd ++ dcBits d) ++ bits ++ c).length, stop, later⟩) := by
    have h1' : coeffLoop (format == 1) 65 1 (fun i => if i = 0 then p.get cc + d else b i)
        ⟨bits ++ (c ++ r), pos + (cd ++ dcBits d).length, stop, later⟩ = _ := h1
    rw [List.append_assoc, h1', hf]
    unfold coeffLoop
    rw [Go.bind_ok (eob_run (by simp) he)]
    simp [Nat.add_assoc]
  refine ⟨b'.fill ([p.get cc + d] ++ expand evs).length, ?_, ?_⟩
  · unfold readBlock
    rw [if_pos rfl]
    rw [show cd ++ dcBits d ++ bits ++ c ++ r = cd ++ dcBits d ++ (bits ++ c ++ r) by simp [List.append_assoc]]
    rw [Go.bind_ok h0, Go.bind_ok h3]; rfl
  · intro i hi
    unfold Block.fill
    split
    · rename_i h
      rw [show (p.get cc + d) :: expand evs = [p.get cc + d] ++ expand evs from rfl,
        List.getD_eq_getElem?_getD, List.getElem?_eq_none h]; rfl
    · exact h2 i (by omega)

/-- **C46** (converse): every block that is accepted consists of coded events and an end of block, and holds
exactly their coefficients (non-intra blocks). -/
theorem C46_accepts_nonintra (b out : Block) (p p' : DcPred) (format cc : Nat) (s s' : BR)
    (h : readBlock b p format cc false s = (.ok (out, p'), s')) :
    p' = p ∧ ∃ evs bits c, CodedEvents false true evs bits ∧ (c, DctSym.eob) ∈ isoB14 ∧
      BR.Took s (bits ++ c) s' ∧ (expand evs).length ≤ 64 ∧ ∀ i, out i = (expand evs).getD i 0 := by
  unfold readBlock at h
  rw [if_neg (by simp)] at h
  obtain ⟨c, s1, h1, h2⟩ := Go.bind_eq_ok h
  cases h2
  obtain ⟨evs, bits, e, k1, k2, k3, k4, _, k6⟩ := coeffLoop_ok false 65 0 b out s s' (by omega) (by simp) h1
  exact ⟨rfl, evs, bits, e, by simpa using k1, by simpa [isoCoef] using k2, k3, by simpa using k4,
    fun i => by simpa using k6 i⟩

/-- **C46** (converse, intra blocks). -/
theorem C46_accepts_intra (b out : Block) (p p' : DcPred) (format cc : Nat) (s s' : BR)
    (h : readBlock b p format cc true s = (.ok (out, p'), s')) :
    ∃ dc s1 evs bits c, readDC cc (p.get cc) s = (.ok dc, s1) ∧ p' = p.set cc dc ∧
      CodedEvents (format == 1) false evs bits ∧ (c, DctSym.eob) ∈ isoCoef (format == 1) false ∧
      BR.Took s1 (bits ++ c) s' ∧ (expand evs).length ≤ 63 ∧ ∀ i, out i = (dc :: expand evs).getD i 0 := by
  unfold readBlock at h
  rw [if_pos rfl] at h
  obtain ⟨dc, s1, h0, h'⟩ := Go.bind_eq_ok h
  obtain ⟨c, s2, h1, h2⟩ := Go.bind_eq_ok h'
  cases h2
  obtain ⟨evs, bits, e, k1, k2, k3, k4, _, k6⟩ := coeffLoop_ok _ 65 1 _ out s1 s' (by omega) (by simp) h1
  refine ⟨dc, s1, evs, bits, e, h0, rfl, by simpa using k1, k2, k3, by omega, fun i => ?_⟩
  rw [k6 i]
  by_cases hi : i < 1
  · rw [if_pos hi]
    have : i = 0 := by omega
    subst this; simp
  · rw [if_neg hi]
    obtain ⟨j, rfl⟩ : ∃ j, i = j + 1 := ⟨i - 1, by omega⟩
    simp

/-- Three events of a non-intra block in table zero: (0, 1) as `1` and sign, (1, -1) as `011` and sign, and an
escape with run 2 and level -100; then the end of block. -/
example : CodedEvents false true [(0, 1), (1, -1), (2, -100)]
    ([true, false] ++ ([false, true, true, true] ++
      ([false, false, false, false, false, true] ++ bitsOf 6 2 ++ bitsOf 12 3996 ++ []))) := by
  refine .cons _ _ _ _ _ _ (.vlc [true] (by decide +kernel) (by decide)) ?_
  refine .cons _ _ _ _ _ _ (.vlc [false, true, true] (by decide +kernel) (by decide)) ?_
  exact .cons _ _ _ _ _ _ (.escape _ (by decide +kernel) (by decide) (by decide)) (.nil _)

/-- An intra luma block in table one: difference -5, events (0, 2) as `110` and (3, -1) as `00111`, end of block
`0110`; predictor 128. -/
example :
    (match readBlock Block.zero ⟨128, 128, 128⟩ 1 0 true (BR.ofBits ([true, false, true, false, true, false] ++
        [true, true, false, false] ++ [false, false, true, true, true, true] ++ [false, true, true, false])) with
     | (.ok (b, p), s) => decide ((List.range 8).map b = [123, 2, 0, 0, 0, -1, 0, 0]) && decide (p = ⟨123, 128, 128⟩)
        && s.bits.isEmpty
     | _ => false) = true := by decide +kernel

/-! ### C47 -/

/-- **C47** is false: every sequence of coded events that needs more than 64 coefficients makes the parser
panic, whatever follows it (non-intra blocks). -/
theorem C47_false (evs : List (Nat × Int)) (bits : List Bool) (hc : CodedEvents false true evs bits)
    (hl : 64 < (expand evs).length) (b : Block) (p : DcPred) (format cc : Nat) (r : List Bool) (pos : Nat) :
    (readBlock b p format cc false ⟨bits ++ r, pos, stop, later⟩).1 = .panic := by
  unfold readBlock
  rw [if_neg (by simp)]
  obtain ⟨s', h⟩ := coeffLoop_overflow (stop := stop) (later := later) false evs 65 0 b bits r pos (by simpa using hc) (by simp)
    (by omega) (by omega) (by omega)
  rw [Go.bind_panic h]

/-- Two escapes with run 63. -/
example : CodedEvents false true [(63, 1), (63, 1)]
    (([false, false, false, false, false, true] ++ bitsOf 6 63 ++ bitsOf 12 1) ++
      (([false, false, false, false, false, true] ++ bitsOf 6 63 ++ bitsOf 12 1) ++ [])) ∧
    64 < (expand [(63, 1), (63, 1)]).length := by
  refine ⟨?_, by decide +kernel⟩
  refine .cons _ _ _ _ _ _ (.escape _ (by decide +kernel) (by decide) (by decide)) ?_
  exact .cons _ _ _ _ _ _ (.escape _ (by decide +kernel) (by decide) (by decide)) (.nil _)

/-- **C47** (partial): reading a block never loops; it panics only when the events that were read need more
than 64 coefficients.  Missing: those blocks are not reported as errors (`C47_false`). -/
theorem C47_partial (b : Block) (p : DcPred) (format cc : Nat) (intra : Bool) (s : BR) :
    (readBlock b p format cc intra s).1 ≠ .hang ∧
    (∀ s', readBlock b p format cc intra s = (.panic, s') →
      ∃ pre evs bits, CodedEvents (intra && format == 1) (!intra) evs bits ∧ BR.Took s (pre ++ bits) s' ∧
        64 < (if intra then 1 else 0) + (expand evs).length) := by
  unfold readBlock
  cases intra with
  | false =>
    rw [if_neg (by simp)]
    have := coeffLoop_result false 65 0 b s (by omega) (by omega) (by simp)
    cases hl : coeffLoop false 65 0 b s with
    | mk res s1 =>
      rw [hl] at this
      cases res with
      | hang => exact absurd rfl this.1
      | err e => rw [Go.bind_err hl]; exact ⟨by simp, fun _ h => by cases h⟩
      | ok a => rw [Go.bind_ok hl]; exact ⟨by simp, fun _ h => by cases h⟩
      | panic =>
        rw [Go.bind_panic hl]
        refine ⟨by simp, fun s' h => ?_⟩
        obtain ⟨evs, bits, k1, k2, k3⟩ := this.2 s1 rfl
        cases h
        exact ⟨[], evs, bits, by simpa using k1, k2, by simpa using k3⟩
  | true =>
    rw [if_pos rfl]
    have hs := safe_readDC cc (p.get cc) s
    cases hd : readDC cc (p.get cc) s with
    | mk res s1 =>
      rw [hd] at hs
      cases res with
      | hang => exact absurd rfl hs.2
      | panic => exact absurd rfl hs.1
      | err e => rw [Go.bind_err hd]; exact ⟨by simp, fun _ h => by cases h⟩
      | ok dc =>
        rw [Go.bind_ok hd]
        obtain ⟨pre, hpre⟩ : ∃ pre, BR.Took s pre s1 := by
          unfold readDC at hd
          obtain ⟨n, s2, g1, g2⟩ := Go.bind_eq_ok hd
          obtain ⟨v, s3, g3, g4⟩ := Go.bind_eq_ok g2
          cases g4
          obtain ⟨c, _, t1⟩ := huffDecode_inv (PrefixFree.ne_nil (pf_dc cc)) (dc_ne_nil cc) g1
          obtain ⟨l, t2, _⟩ := BR.read_inv g3
          exact ⟨_, t1.trans t2⟩
        have := coeffLoop_result (format == 1) 65 1 (fun i => if i = 0 then dc else b i) s1 (by omega) (by omega)
          (by simp)
        cases hl : coeffLoop (format == 1) 65 1 (fun i => if i = 0 then dc else b i) s1 with
        | mk res s2 =>
          rw [hl] at this
          cases res with
          | hang => exact absurd rfl this.1
          | err e => rw [Go.bind_err hl]; exact ⟨by simp, fun _ h => by cases h⟩
          | ok a => rw [Go.bind_ok hl]; exact ⟨by simp, fun _ h => by cases h⟩
          | panic =>
            rw [Go.bind_panic hl]
            refine ⟨by simp, fun s' h => ?_⟩
            obtain ⟨evs, bits, k1, k2, k3⟩ := this.2 s2 rfl
            cases h
            exact ⟨pre, evs, bits, by simpa using k1, hpre.trans k2, by simpa using k3⟩

/-! ### C48 -/

/-- **C48**: both scans are permutations of the 64 positions. -/
theorem C48 (alt : Nat) :
    (∀ i < 64, scanAt alt i < 64) ∧ (∀ i < 64, ∀ j < 64, scanAt alt i = scanAt alt j → i = j) ∧
    (∀ k < 64, ∃ i, i < 64 ∧ scanAt alt i = k) := by
  have key : ∀ l : List Nat, l = scanZigzag ∨ l = scanAlternate →
      (∀ i < 64, l.getD i 0 < 64) ∧ (∀ i < 64, ∀ j < 64, l.getD i 0 = l.getD j 0 → i = j) ∧
      (∀ k < 64, ∃ i < 64, l.getD i 0 = k) := by
    rintro l (rfl | rfl)
    · exact ⟨by decide +kernel, by decide +kernel, by decide +kernel⟩
    · exact ⟨by decide +kernel, by decide +kernel, by decide +kernel⟩
  have := key (if alt = 0 then scanZigzag else scanAlternate) (by split <;> simp)
  exact ⟨this.1, this.2.1, fun k hk => by obtain ⟨i, h1, h2⟩ := this.2.2 k hk; exact ⟨i, h1, h2⟩⟩

/-- **C48** (standard): the first scan is the zigzag of Figure 7-2, the second the alternate scan of Figure 7-3:
position `8 * v + u` receives the coefficient whose scan position the standard gives. -/
theorem C48_iso : (∀ v < 8, ∀ u < 8, scanAt 0 (8 * v + u) = zigzagPos v u) ∧
    (∀ n < 64, scanAt 1 (alternateOrder.getD n 0) = n) := by
  exact ⟨by decide +kernel, by decide +kernel⟩

/-! ### C49 -/

theorem scale_iso (t code : Nat) (h : code < 32) : quantiserScale t code = isoScale t code := by
  have key : ∀ code < 32, quantiserScale 0 code = isoScale 0 code ∧ quantiserScale 1 code = isoScale 1 code := by
    decide +kernel
  have := key code h
  unfold quantiserScale isoScale at *
  by_cases ht : t = 0
  · simp only [ht, if_true] at *; exact this.1
  · simp only [ht, if_false] at *; exact this.2

theorem scale_range (t code : Nat) (h : code < 32) : 0 ≤ quantiserScale t code ∧ quantiserScale t code ≤ 112 := by
  rw [scale_iso t code h]
  unfold isoScale
  split
  · omega
  · split
    · omega
    · split
      · omega
      · split <;> omega

theorem sign_eq (x : Int) : sign32 x = Int.sign x := by
  unfold sign32
  split
  · rename_i h; rw [Int.sign_eq_one_of_pos h]
  · split
    · rename_i h; rw [Int.sign_eq_neg_one_of_neg h]
    · have : x = 0 := by omega
      subst this; rfl

theorem mul_bound {a b A B : Int} (ha : -A ≤ a ∧ a ≤ A) (hb : 0 ≤ b ∧ b ≤ B) (hA : 0 ≤ A) :
    -(A * B) ≤ a * b ∧ a * b ≤ A * B := by
  have h1 : a * b ≤ A * b := Int.mul_le_mul_of_nonneg_right ha.2 hb.1
  have h2 : A * b ≤ A * B := Int.mul_le_mul_of_nonneg_left hb.2 hA
  have h3 : -A * b ≤ a * b := Int.mul_le_mul_of_nonneg_right ha.1 hb.1
  have h4 : -A * b = -(A * b) := Int.neg_mul ..
  omega

/-- The AC formula without overflow. -/
theorem dequant_ac (q : QParams) (qf : Int) (i : Nat) (hq : q.qsc < 32) (hw : ∀ x ∈ q.matrix, x < 256)
    (hr : -2048 ≤ qf ∧ qf ≤ 2047) (hi : ¬ (i = 0 ∧ q.intra = true)) :
    dequant q qf i = isoAC q.intra qf ((q.matrix.getD i 0 : Nat) : Int) (isoScale q.qScaleType q.qsc) := by
  have hs := scale_range q.qScaleType q.qsc hq
  have hw' : (0 : Int) ≤ ((q.matrix.getD i 0 : Nat) : Int) ∧ ((q.matrix.getD i 0 : Nat) : Int) ≤ 255 := by
    refine ⟨by omega, ?_⟩
    by_cases h : i < q.matrix.length
    · have := hw (q.matrix[i]) (List.getElem_mem h)
      rw [List.getD_eq_getElem?_getD, List.getElem?_eq_getElem h]; simp; omega
    · rw [List.getD_eq_getElem?_getD, List.getElem?_eq_none (by omega)]; simp
  unfold dequant isoAC
  rw [← scale_iso _ _ hq]
  simp only [if_neg hi]
  generalize quantiserScale q.qScaleType q.qsc = S at *
  generalize ((q.matrix.getD i 0 : Nat) : Int) = W at *
  cases hI : q.intra with
  | true =>
    simp only [if_true]
    have e : (2 * qf + 0) * W * S = qf * W * S * 2 := by
      rw [Int.add_zero, Int.mul_assoc 2, Int.mul_assoc 2, Int.mul_comm 2]
    rw [e]
    have b1 := mul_bound (A := 2048) (B := 255) (a := qf) (b := W) (by omega) hw' (by omega)
    have b2 := mul_bound (A := 2048 * 255) (B := 112) (a := qf * W) (b := S) b1 hs (by omega)
    rw [i32_of_range (by omega) (by omega)]
  | false =>
    simp only [Bool.false_eq_true, if_false]
    rw [sign_eq, Int.mul_comm qf 2]
    have hsg : -1 ≤ Int.sign qf ∧ Int.sign qf ≤ 1 := by
      rw [← sign_eq]; unfold sign32; split
      · omega
      · split <;> omega
    have b1 := mul_bound (A := 4097) (B := 255) (a := 2 * qf + Int.sign qf) (b := W) (by omega) hw' (by omega)
    have b2 := mul_bound (A := 4097 * 255) (B := 112) b1 hs (by omega)
    rw [i32_of_range (by omega) (by omega)]

theorem saturate_iso (x : Int) : saturate x = isoSaturate x := by
  unfold saturate isoSaturate; split
  · omega
  · split <;> omega

theorem saturate_range (x : Int) : -2048 ≤ saturate x ∧ saturate x ≤ 2047 := by
  unfold saturate; split
  · omega
  · split <;> omega

theorem dcMult_iso (p : Nat) (h : p < 4) : (2 : Int) ^ (3 - p) = isoDcMult p := by
  have : ∀ p < 4, (2 : Int) ^ (3 - p) = isoDcMult p := by decide
  exact this p h

/-- `mismatch` as a list operation -/
theorem mismatch_iso (f : Block) : (List.range 64).map (mismatch f) = isoMismatch ((List.range 64).map f) := by
  unfold mismatch isoMismatch blockSum
  have hg : ((List.range 64).map f).getD 63 0 = f 63 := by
    simp [List.getD_eq_getElem?_getD]
  rw [hg]
  split
  · apply List.ext_getElem
    · simp
    · intro i h1 h2
      simp only [List.length_map, List.length_range] at h1
      rw [List.getElem_set]
      simp only [List.getElem_map, List.getElem_range]
      by_cases h : i = 63
      · rw [if_pos h, if_pos h.symm]
        by_cases h3 : f 63 % 2 = 0
        · rw [if_neg (by omega), if_pos h3]
        · rw [if_pos h3, if_neg h3]
      · rw [if_neg h, if_neg (fun h' => h h'.symm)]
  · rfl

/-- **C49**: the reconstructed coefficients are those of ISO/IEC 13818-2 7.4, applied to the inversely scanned
coefficients, for every AC level that the bitstream can carry and every DC value below `2 ^ 28`.

Partial: the DC value of an intra block is the sum of the differences of the slice, which nothing bounds; from `2 ^ 28` on
the product wraps around (`C49_false`). -/
theorem C49_partial (q : QParams) (qfs : Block) (hq : q.qsc < 32) (hp : q.intraDCPrecision < 4)
    (hw : ∀ x ∈ q.matrix, x < 256) (hac : ∀ i, 0 < i → i < 64 → -2048 ≤ qfs i ∧ qfs i ≤ 2047)
    (hdc : if q.intra then -2 ^ 28 ≤ qfs 0 ∧ qfs 0 < 2 ^ 28 else -2048 ≤ qfs 0 ∧ qfs 0 ≤ 2047) :
    (List.range 64).map (decodeBlock q qfs) =
      isoDequant q.intra (isoDcMult q.intraDCPrecision) (isoScale q.qScaleType q.qsc) q.matrix
        ((List.range 64).map fun i => qfs (scanAt q.alternateScan i)) := by
  unfold decodeBlock isoDequant
  rw [mismatch_iso]
  congr 1
  apply List.map_congr_left
  intro i hi
  rw [List.mem_range] at hi
  rw [saturate_iso]
  congr 1
  have hg : ∀ j, j < 64 → ((List.range 64).map fun i => qfs (scanAt q.alternateScan i)).getD j 0 =
      qfs (scanAt q.alternateScan j) := by
    intro j hj
    simp [List.getD_eq_getElem?_getD, List.getElem?_eq_getElem, hj]
  have h00 : scanAt q.alternateScan 0 = 0 := by unfold scanAt; split <;> rfl
  by_cases h0 : i = 0 ∧ q.intra = true
  · rw [if_pos h0, hg 0 (by omega), h00]
    unfold dequant
    simp only
    rw [if_pos h0, h0.1, h00, dcMult_iso _ hp]
    rw [if_pos h0.2] at hdc
    apply i32_of_range
    · unfold isoDcMult; split
      · omega
      · split
        · omega
        · split <;> omega
    · unfold isoDcMult; split
      · omega
      · split
        · omega
        · split <;> omega
  · rw [if_neg h0, hg i hi]
    apply dequant_ac q _ i hq hw ?_ h0
    have hlt := (C48 q.alternateScan).1 i hi
    by_cases hz : scanAt q.alternateScan i = 0
    · have hi0 : i = 0 := (C48 q.alternateScan).2.1 i hi 0 (by omega) (by rw [hz, h00])
      have hI : q.intra ≠ true := fun h => h0 ⟨hi0, h⟩
      rw [hz]
      simpa [hI] using hdc
    · exact hac _ (by omega) hlt

theorem sum_set (l : List Int) (i : Nat) (x : Int) (h : i < l.length) : (l.set i x).sum = l.sum - l.getD i 0 + x := by
  induction l generalizing i with
  | nil => simp at h
  | cons a l ih =>
    cases i with
    | zero => simp; omega
    | succ i =>
      simp only [List.set_cons_succ, List.sum_cons, List.getD_cons_succ]
      rw [ih i (by simpa using h)]; omega

theorem isoMismatch_odd (l : List Int) (h : l.length = 64) : (isoMismatch l).sum % 2 = 1 := by
  unfold isoMismatch
  split
  · rw [sum_set l 63 _ (by omega)]
    split <;> omega
  · omega

/-- **C49** (range and parity): whatever the input, every output is in [-2048, 2047] and their sum is odd. -/
theorem C49_range (q : QParams) (qfs : Block) :
    (∀ i, -2048 ≤ decodeBlock q qfs i ∧ decodeBlock q qfs i ≤ 2047) ∧
    ((List.range 64).map (decodeBlock q qfs)).sum % 2 = 1 := by
  constructor
  · intro i
    unfold decodeBlock mismatch
    split
    · simp only
      split
      · have := saturate_range (dequant q (qfs (scanAt q.alternateScan 63)) 63)
        split <;> omega
      · exact saturate_range _
    · exact saturate_range _
  · unfold decodeBlock
    rw [mismatch_iso]
    exact isoMismatch_odd _ (by simp)

/-- **C49** (no overflow): the AC coefficients of every accepted block are in [-2048, 2047]. -/
theorem C49_levels (b out : Block) (p p' : DcPred) (format cc : Nat) (intra : Bool) (s s' : BR)
    (h : readBlock b p format cc intra s = (.ok (out, p'), s')) (i : Nat) (hi : intra = true → i ≠ 0) :
    -2048 ≤ out i ∧ out i ≤ 2047 := by
  have key : ∀ (l : List Int), (∀ x ∈ l, -2048 ≤ x ∧ x < 2048) → ∀ j, -2048 ≤ l.getD j 0 ∧ l.getD j 0 ≤ 2047 := by
    intro l hl j
    by_cases hj : j < l.length
    · rw [List.getD_eq_getElem?_getD, List.getElem?_eq_getElem hj]
      have := hl _ (List.getElem_mem hj)
      simp; omega
    · rw [List.getD_eq_getElem?_getD, List.getElem?_eq_none (by omega)]; simp
  cases intra with
  | false =>
    obtain ⟨_, evs, bits, c, k1, _, _, _, k5⟩ := C46_accepts_nonintra b out p p' format cc s s' h
    rw [k5 i]; exact key _ (expand_level k1) i
  | true =>
    obtain ⟨dc, s1, evs, bits, c, _, _, k1, _, _, _, k5⟩ := C46_accepts_intra b out p p' format cc s s' h
    rw [k5 i]
    obtain ⟨j, rfl⟩ : ∃ j, i = j + 1 := ⟨i - 1, by have := hi rfl; omega⟩
    rw [List.getD_cons_succ]; exact key _ (expand_level k1) j

/-- `n` intra luma blocks one after the other, as the blocks of the macroblocks of a slice are read -/
def readMany : Nat → Block → DcPred → Go BR (Block × DcPred)
  | 0, b, p => pure (b, p)
  | n + 1, b, p => do
    let x ← readBlock b p 0 0 true
    readMany n x.1 x.2

/-- A block with the DC difference 2047 and no other coefficient. -/
def dcBlock2047 : List Bool := ([true, true, true, true, true, true, true, true, true] ++ dcBits 2047) ++ [] ++ [true, false]

theorem readMany_run (stop : Err) (later : List (List Bool × Err)) (r : List Bool) : ∀ (n : Nat) (b : Block) (p : DcPred) (pos : Nat),
    0 ≤ p.get 0 → p.get 0 + 2047 * (n + 1) < 2 ^ 31 →
    ∃ out q pos', readMany (n + 1) b p ⟨(List.replicate (n + 1) dcBlock2047).flatten ++ r, pos, stop, later⟩ =
        (.ok (out, q), ⟨r, pos', stop, later⟩) ∧
      ∀ i, i < 64 → out i = if i = 0 then p.get 0 + 2047 * (n + 1) else 0 := by
  intro n
  induction n with
  | zero =>
    intro b p pos h0 h1
    obtain ⟨out, e, ho⟩ := C46_intra (stop := stop) (later := later) 2047 0 p (by omega) [true, true, true, true, true, true, true, true, true]
      (by decide +kernel) 0 [] [] [true, false] (.nil _) (by decide +kernel) (by decide) b r pos
    refine ⟨out, p.set 0 (p.get 0 + 2047), pos + dcBlock2047.length, ?_, fun i hi => ?_⟩
    · show readMany 1 b p _ = _
      unfold readMany
      rw [show (List.replicate (0 + 1) dcBlock2047).flatten = dcBlock2047 by simp]
      rw [show dcBlock2047 = ([true, true, true, true, true, true, true, true, true] ++ dcBits 2047) ++ [] ++ [true, false] from rfl, Go.bind_ok e]
      rfl
    · rw [ho i hi]
      cases i with
      | zero => simp
      | succ i => simp [expand]
  | succ n ih =>
    intro b p pos h0 h1
    obtain ⟨out, e, ho⟩ := C46_intra (stop := stop) (later := later) 2047 0 p (by omega) [true, true, true, true, true, true, true, true, true]
      (by decide +kernel) 0 [] [] [true, false] (.nil _) (by decide +kernel) (by decide) b
      ((List.replicate (n + 1) dcBlock2047).flatten ++ r) pos
    have hg : (p.set 0 (p.get 0 + 2047)).get 0 = p.get 0 + 2047 := by simp [DcPred.set, DcPred.get]
    obtain ⟨out', q, pos', e', ho'⟩ := ih out (p.set 0 (p.get 0 + 2047)) (pos + dcBlock2047.length) (by rw [hg]; omega)
      (by rw [hg]; push_cast at h1; omega)
    refine ⟨out', q, pos', ?_, fun i hi => ?_⟩
    · unfold readMany
      rw [List.replicate_succ, List.flatten_cons, List.append_assoc]
      show (readBlock b p 0 0 true >>= fun x => readMany (n + 1) x.1 x.2) _ = _
      rw [show dcBlock2047 = ([true, true, true, true, true, true, true, true, true] ++ dcBits 2047) ++ [] ++ [true, false] from rfl] at *
      rw [Go.bind_ok e]
      exact e'
    · rw [ho' i hi, hg]
      push_cast
      split <;> omega

theorem i32_wraps {x : Int} (h1 : 2 ^ 31 ≤ x) (h2 : x < 2 ^ 32 - 2048) : i32 x < -2048 := by
  unfold i32
  rw [Int.bmod_def]
  have : x % ((2 ^ 32 : Nat) : Int) = x := Int.emod_eq_of_lt (by omega) (by omega)
  rw [this, if_neg (by omega)]
  omega

theorem dc_wraps {q : QParams} {out : Block} (hi : q.intra = true) (hp : q.intraDCPrecision = 0)
    (h1 : 2 ^ 28 ≤ out 0) (h2 : out 0 < 2 ^ 29 - 256) : decodeBlock q out 0 = -2048 := by
  have h00 : scanAt q.alternateScan 0 = 0 := by unfold scanAt; split <;> rfl
  have : decodeBlock q out 0 = saturate (dequant q (out (scanAt q.alternateScan 0)) 0) := by
    unfold decodeBlock mismatch
    split <;> simp
  rw [this, h00]
  unfold dequant
  simp only [hi, hp, and_self, if_true]
  have : i32 (2 ^ (3 - 0) * out 0) < -2048 := i32_wraps (by omega) (by omega)
  unfold saturate
  rw [if_neg (by omega), if_pos this]

theorem dc_iso {q : QParams} {out : Block} (hi : q.intra = true) (hp : q.intraDCPrecision = 0) (h1 : 2 ^ 28 ≤ out 0) :
    (isoDequant q.intra (isoDcMult q.intraDCPrecision) (isoScale q.qScaleType q.qsc) q.matrix
      ((List.range 64).map fun i => out (scanAt q.alternateScan i))).getD 0 0 = 2047 := by
  have h00 : scanAt q.alternateScan 0 = 0 := by unfold scanAt; split <;> rfl
  have hs : ∀ l : List Int, (isoMismatch l).getD 0 0 = l.getD 0 0 := by
    intro l
    unfold isoMismatch
    split
    · cases l <;> simp
    · rfl
  unfold isoDequant
  rw [hs, hi, hp]
  simp only [List.getD_eq_getElem?_getD, List.getElem?_map]
  simp only [List.getElem?_range (show 0 < 64 by omega), Option.map_some, Option.getD_some, and_self, if_true, h00]
  unfold isoDcMult isoSaturate
  rw [if_pos rfl]
  omega

/-- **C49** is false for unbounded slices: after `n` luma blocks with the difference 2047 (131137 or more, coded as the standard
says, with precision 0) the decoder reconstructs the DC coefficient -2048 where 7.4 gives 2047: the 32-bit product has wrapped
around. -/
theorem C49_false (n : Nat) (h1 : 131137 ≤ n) (h2 : n ≤ 262000) (q : QParams) (hi : q.intra = true) (hp : q.intraDCPrecision = 0)
    (r : List Bool) (pos : Nat) (stop : Err) (later : List (List Bool × Err)) :
    ∃ out p s', readMany n Block.zero (DcPred.reset 0) ⟨(List.replicate n dcBlock2047).flatten ++ r, pos, stop, later⟩ =
        (.ok (out, p), s') ∧
      decodeBlock q out 0 = -2048 ∧
      (isoDequant q.intra (isoDcMult q.intraDCPrecision) (isoScale q.qScaleType q.qsc) q.matrix
        ((List.range 64).map fun i => out (scanAt q.alternateScan i))).getD 0 0 = 2047 := by
  have hn : ∃ m, n = m + 1 := ⟨n - 1, by omega⟩
  obtain ⟨m, hm⟩ := hn
  have h128 : (DcPred.reset 0).get 0 = 128 := by decide
  have k1 : (131136 : Int) ≤ (m : Int) := by omega
  have k2 : (m : Int) ≤ 261999 := by omega
  clear h1 h2
  subst hm
  obtain ⟨out, p, pos', e, ho⟩ := readMany_run stop later r m Block.zero (DcPred.reset 0) pos (by rw [h128]; omega)
    (by rw [h128]; omega)
  have hv := ho 0 (by omega)
  rw [if_pos rfl, h128] at hv
  exact ⟨out, p, _, e, dc_wraps hi hp (by omega) (by omega), dc_iso hi hp (by omega)⟩

/-- The hypotheses of `C49_partial` and a result: an intra block with DC 10 (precision 0, so F = 80) and one AC level 3 at
scan position 1, default matrix, quantiser scale code 4 (scale 8): 3 * 16 * 8 * 2 / 32 = 24; the sum is even, so
the last coefficient becomes 1. -/
example :
    let q : QParams := ⟨0, 0, 0, 1, ⟨defaultIntra, defaultNonIntra, defaultIntra, defaultNonIntra⟩, 0, 4, true⟩
    let f := decodeBlock q (fun i => if i = 0 then 10 else if i = 1 then 3 else 0)
    f 0 = 80 ∧ f 1 = 24 ∧ f 63 = 1 := by decide +kernel

/-! ### C50 -/

/-- **C50**: the IDCT of a block whose only coefficient is `dc`. -/
theorem C50 (dc : Int) (h : -2048 ≤ dc ∧ dc ≤ 2047) (b : Block) (hb : ∀ i, i < 64 → b i = if i = 0 then dc else 0)
    (i : Nat) (hi : i < 64) : idct b i = (dc + 4) / 8 := by
  have hrow : ∀ v, v < 8 → ∀ u, u < 8 → idctRows b (8 * v + u) = if v = 0 then dc * 8 else 0 := by
    intro v hv u hu
    unfold idctRows
    rw [show (8 * v + u) / 8 = v by omega]
    have z : ∀ k, 0 < k → k < 8 → b (8 * v + k) = 0 := by
      intro k h1 h2; rw [hb _ (by omega), if_neg (by omega)]
    unfold idctRow
    rw [if_pos ⟨z 1 (by omega) (by omega), z 2 (by omega) (by omega), z 3 (by omega) (by omega),
      z 4 (by omega) (by omega), z 5 (by omega) (by omega), z 6 (by omega) (by omega), z 7 (by omega) (by omega)⟩]
    simp only
    rw [Nat.add_zero, hb _ (by omega)]
    by_cases h0 : v = 0
    · rw [if_pos (by omega), if_pos h0]; exact i32_of_range (by omega) (by omega)
    · rw [if_neg (by omega), if_neg h0]; rfl
  unfold idct idctCols
  have hx : i % 8 < 8 := Nat.mod_lt _ (by omega)
  have hc : ∀ k, k < 8 → idctRows b (8 * k + i % 8) = if k = 0 then dc * 8 else 0 := fun k hk => hrow k hk _ hx
  unfold idctCol
  simp only [hc 0 (by omega), hc 1 (by omega), hc 2 (by omega), hc 3 (by omega), hc 4 (by omega), hc 5 (by omega),
    hc 6 (by omega), hc 7 (by omega), if_true, show (1 : Nat) ≠ 0 by omega, show (2 : Nat) ≠ 0 by omega,
    show (3 : Nat) ≠ 0 by omega, show (4 : Nat) ≠ 0 by omega, show (5 : Nat) ≠ 0 by omega,
    show (6 : Nat) ≠ 0 by omega, show (7 : Nat) ≠ 0 by omega, if_false]
  simp (discharger := omega) only [i32_of_range]
  repeat' split
  all_goals omega

/-! ### C52 -/

/-- **C52**: clamping gives the nearest sample value. -/
theorem C52 (x : Int) : clamp8 x ≤ 255 ∧ ∀ v : Nat, v ≤ 255 → ((clamp8 x : Int) - x).natAbs ≤ ((v : Int) - x).natAbs := by
  unfold clamp8
  split
  · exact ⟨by omega, fun v hv => by omega⟩
  · split
    · exact ⟨by omega, fun v hv => by omega⟩
    · exact ⟨by omega, fun v hv => by omega⟩

example : clamp8 (-7) = 0 ∧ clamp8 300 = 255 ∧ clamp8 100 = 100 := by decide

end Mpeg.Video
