/-
Blocks, macroblocks, slices and pictures: acceptance and the syntax.
-/
import Verif.Video.SynLemmas
set_option linter.all false
namespace Mpeg.Video
open Spec
open _root_.Mpeg.BR (Took)

/-! ### blocks -/

theorem first_no_eob (c : List Bool) : (c, DctSym.eob) ∉ isoCoef false true := by
  have : (isoCoef false true).all (fun x => x.2 != DctSym.eob) = true := by decide +kernel
  intro h
  simpa using List.all_eq_true.mp this _ h

theorem coeffLoop_inv (one : Bool) : ∀ (fuel n : Nat) (b b' : Block) (s s' : BR), (one = true → n ≠ 0) →
    coeffLoop one fuel n b s = (.ok b', s') →
    ∃ evs l c, CodedEvents one (decide (n = 0)) evs l ∧ (c, DctSym.eob) ∈ isoCoef one (decide (n = 0 ∧ evs = [])) ∧
      n + (expand evs).length ≤ max n 64 ∧ Took s (l ++ c) s'
  | 0, n, b, b', s, s', _, h => by cases h
  | fuel + 1, n, b, b', s, s', ho, h => by
    unfold coeffLoop at h
    obtain ⟨ev, s1, h1, h2⟩ := Go.bind_eq_ok h
    obtain ⟨c, t1, hc⟩ := event_inv ho h1
    cases ev with
    | eob =>
      cases h2
      exact ⟨[], [], c, .nil _, by simpa using hc, by simp [expand]; omega, by simpa using t1⟩
    | coef run level =>
      dsimp only at h2
      split at h2
      · rename_i hn
        obtain ⟨evs, l, c', k1, k2, k3, t2⟩ := coeffLoop_inv one fuel _ _ _ _ _ (fun _ => by omega) h2
        have z : decide (n + run + 1 = 0) = false := by simp
        rw [z] at k1
        have z' : decide (n + run + 1 = 0 ∧ evs = []) = false := by simp
        rw [z'] at k2
        refine ⟨(run, level) :: evs, c ++ l, c', .cons _ run level evs c l hc k1, ?_, ?_, ?_⟩
        · have : decide (n = 0 ∧ ((run, level) :: evs) = []) = false := by simp
          rw [this]; exact k2
        · rw [expand_cons]
          simp only [List.length_append, List.length_replicate, List.length_singleton]
          omega
        · rw [List.append_assoc]; exact t1.trans t2
      · cases h2

theorem expand_length (evs : List (Nat × Int)) : evs.length ≤ (expand evs).length := by
  induction evs with
  | nil => simp
  | cons e t ih =>
    obtain ⟨a, b⟩ := e
    rw [expand_cons]
    simp only [List.length_append, List.length_replicate, List.length_cons, List.length_nil]
    omega

/-- The coefficients and the end of block code. -/
theorem coeffLoop_words (one : Bool) (dc : List Int) (b : Block) (evs : List (Nat × Int)) (l c r : List Bool) (s : BR)
    (hl : CodedEvents one (decide (dc.length = 0)) evs l) (ho : one = true → dc.length ≠ 0) (hb : Agrees b dc)
    (h64 : (dc ++ expand evs).length ≤ 64) (hne : dc.length ≠ 0 ∨ evs ≠ []) (hc : (c, DctSym.eob) ∈ isoCoef one false)
    (hs : s.bits = l ++ c ++ r) : ∃ b' s', coeffLoop one 65 dc.length b s = (.ok b', s') ∧ Took s (l ++ c) s' := by
  obtain ⟨bits, pos, stop, later⟩ := s
  dsimp only at hs
  subst hs
  have he := expand_length evs
  have h64' := h64
  rw [List.length_append] at h64'
  obtain ⟨b', h1, -⟩ := coeffLoop_run (stop := stop) (later := later) one evs 65 dc b l (c ++ r) pos hl ho hb h64 (by omega)
  obtain ⟨f, hf⟩ : ∃ f, 65 - evs.length = f + 1 := ⟨64 - evs.length, by omega⟩
  have hn : (dc ++ expand evs).length ≠ 0 := by
    rw [List.length_append]
    rcases hne with h | h
    · omega
    · have := List.length_pos_iff.mpr h; omega
  rw [hf] at h1
  conv at h1 => rhs; unfold coeffLoop
  rw [Go.bind_ok (eob_run hn hc)] at h1
  rw [List.append_assoc, h1]
  exact ⟨_, _, rfl, ⟨by simp, by simp only [List.length_append]; omega, rfl, rfl⟩⟩

theorem reads_block (b : Block) (p : DcPred) (fmt cc : Nat) (intra : Bool) :
    Reads id (readBlock b p fmt cc intra) (fun _ => ()) (fun l _ => BlockWord intra fmt cc l) := by
  unfold readBlock
  cases intra with
  | false =>
    rw [if_neg (by decide)]
    constructor
    · intro l u s r hl hb hr
      cases hl with
      | intra _ _ _ _ _ _ hi => cases hi
      | nonintra evs l c hi hev hl hc h64 =>
        obtain ⟨b', s', h1, t⟩ := coeffLoop_words false [] b evs l c r s hl (fun h => by cases h) (fun i hi => by cases hi)
          (by simpa using h64) (.inr hev) hc hb
        refine .inr ⟨(b', p), s', ?_, rfl, t⟩
        exact (Go.bind_ok h1).trans rfl
    · intro s a s' h
      obtain ⟨c, s1, h1, h2⟩ := Go.bind_eq_ok h
      cases h2
      obtain ⟨evs, l, c, k1, k2, k3, t⟩ := coeffLoop_inv false 65 0 _ _ _ _ (fun h => by cases h) h1
      have hne : evs ≠ [] := by
        rintro rfl
        exact first_no_eob c (by simpa using k2)
      refine ⟨_, .nonintra evs l c rfl hne k1 ?_ (by omega), t⟩
      have : decide (0 = 0 ∧ evs = []) = false := by simp [hne]
      rw [this] at k2
      exact k2
  | true =>
    rw [if_pos rfl]
    have dc : Reads id (readDC cc (p.get cc)) (fun _ => ())
        (fun l _ => ∃ z d n, l = z ++ d ∧ (z, n) ∈ isoDc cc ∧ d.length = n) := by
      unfold readDC dcSize
      refine (Reads.bindId (reads_huff (pf_dc cc) (dc_ne_nil cc)) fun n _ => Reads.seq (reads_read n) fun v _ =>
        Reads.pure (fun _ => ()) _).congr ?_
      intro l u
      have mem : ∀ z n, (z, n) ∈ (if cc = 0 then dcLumaTable else dcChromaTable) ↔ (z, n) ∈ isoDc cc := by
        intro z n
        unfold isoDc
        split
        · exact same_dcLuma _
        · exact same_dcChroma _
      constructor
      · rintro ⟨z, l2, n, rfl, hz, d, l3, v, rfl, ⟨hd, -⟩, rfl, -⟩
        exact ⟨z, d, n, by simp, (mem z n).1 hz, hd⟩
      · rintro ⟨z, d, n, rfl, hz, hd⟩
        exact ⟨z, d, n, rfl, (mem z n).2 hz, d, [], _, by simp, ⟨hd, rfl⟩, rfl, rfl⟩
    have ac : ∀ dcv : Int, Reads id (coeffLoop (fmt == 1) 65 1 (fun i => if i = 0 then dcv else b i)) (fun _ => ())
        (fun l _ => ∃ evs l' c, l = l' ++ c ∧ CodedEvents (fmt == 1) false evs l' ∧
          (c, DctSym.eob) ∈ isoCoef (fmt == 1) false ∧ (expand evs).length ≤ 63) := by
      intro dcv
      constructor
      · rintro l u s r ⟨evs, l', c, rfl, k1, k2, k3⟩ hb hr
        obtain ⟨b', s', h1, t⟩ := coeffLoop_words (fmt == 1) [dcv] (fun i => if i = 0 then dcv else b i) evs l' c r s
          (by simpa using k1) (fun _ => by simp) (fun i hi => by
            have : i = 0 := by simp at hi; exact hi
            subst this; rfl)
          (by simp only [List.length_append, List.length_singleton]; omega) (.inl (by simp)) k2 hb
        exact .inr ⟨b', s', h1, rfl, t⟩
      · intro s a s' h
        obtain ⟨evs, l, c, k1, k2, k3, t⟩ := coeffLoop_inv (fmt == 1) 65 1 _ _ _ _ (fun _ => by decide) h
        refine ⟨l ++ c, ⟨evs, l, c, rfl, by simpa using k1, by simpa using k2, by omega⟩, t⟩
    refine (Reads.seq dc fun dcv _ => Reads.seq (ac dcv) fun _ _ => Reads.pure (fun _ => ()) _).congr ?_
    intro l u
    constructor
    · rintro ⟨_, l2, -, rfl, ⟨z, d, n, rfl, hz, hd⟩, _, l4, -, rfl, ⟨evs, l', c, rfl, k1, k2, k3⟩, rfl, -⟩
      have := BlockWord.intra (intra := true) (format := fmt) (cc := cc) n z d evs l' c rfl hz hd k1 k2 k3
      simpa using this
    · intro h
      cases h with
      | nonintra _ _ _ hi => cases hi
      | intra n z d evs l' c _ hz hd k1 k2 k3 =>
        exact ⟨_, _, (), rfl, ⟨z, d, n, rfl, hz, hd⟩, _, [], (), by simp, ⟨evs, l', c, rfl, k1, k2, k3⟩, rfl, rfl⟩

theorem reads_mbBlock (e : PicEnv) (intra coded : Bool) (i : Nat) (b : Block) :
    Reads MB.br (mbBlock e intra coded i b) (fun _ => ())
      (fun l _ => if coded then BlockWord intra e.pce.intraVLCFormat (colorChannel i) l else l = []) := by
  have key := reads_block b
  cases coded with
  | false =>
    refine (Reads.silent fun s => .inr ⟨Block.zero, s, rfl, rfl⟩).congr fun l u => by simp
  | true =>
    constructor
    · intro l u s r hl hb hr
      have hl : BlockWord intra e.pce.intraVLCFormat (colorChannel i) l := hl
      unfold mbBlock
      rw [if_pos rfl]
      rcases (reads_block b s.dcp e.pce.intraVLCFormat (colorChannel i) intra).fwd l () s.br r hl hb hr with h | ⟨a, s', h, -, t⟩
      · left
        cases hx : readBlock b s.dcp e.pce.intraVLCFormat (colorChannel i) intra s.br with
        | mk x y =>
          rw [hx] at h
          dsimp only at h
          subst h
          rfl
      · right
        rw [h]
        exact ⟨_, _, rfl, rfl, t⟩
    · intro s a s' h
      unfold mbBlock at h
      rw [if_pos rfl] at h
      cases hx : readBlock b s.dcp e.pce.intraVLCFormat (colorChannel i) intra s.br with
      | mk x y =>
        rw [hx] at h
        cases x with
        | ok c =>
          cases h
          obtain ⟨l, hl, t⟩ := (reads_block b s.dcp e.pce.intraVLCFormat (colorChannel i) intra).bwd _ _ _ hx
          exact ⟨l, hl, t⟩
        | err x => cases h
        | panic => cases h
        | hang => cases h

theorem reads_mbBlocks (e : PicEnv) (intra dct : Bool) (coded : Nat → Bool) (addr row : Nat) :
    ∀ (k i : Nat) (b : Block), i + k ≤ 6 → Reads MB.br (mbBlocks e intra dct coded addr row k i b) (fun _ => ())
      (fun l _ => BlocksWord intra e.pce.intraVLCFormat coded k i l)
  | 0, i, b, _ => by
    refine (Reads.pure (fun _ => ()) ()).congr fun l u => ?_
    constructor
    · rintro ⟨rfl, -⟩; exact .nil i
    · intro h; cases h; exact ⟨rfl, rfl⟩
  | k + 1, i, b, hk => by
    unfold mbBlocks
    refine (Reads.seq (reads_mbBlock e intra (coded i) i b) fun b' _ => Reads.get_bind fun s => Reads.orPanic_bind fun f _ =>
      Reads.seq (Reads.modify (by exact fun _ => rfl)) fun _ _ =>
        reads_mbBlocks e intra dct coded addr row k (i + 1) b' (by omega)).congr fun l u => ?_
    rw [(blockComp_eq (i := i) (by omega)).1]
    constructor
    · rintro ⟨l1, l2, -, rfl, h1, l3, l4, -, rfl, rfl, h2⟩
      cases hc : coded i with
      | true => rw [hc, if_pos rfl] at h1; exact .coded k i l1 l4 hc h1 h2
      | false => rw [hc, if_neg (by decide)] at h1; subst h1; exact .uncoded k i l4 hc h2
    · intro h
      cases h with
      | coded _ _ l1 l2 hc h1 h2 => exact ⟨l1, l2, (), rfl, by rw [hc, if_pos rfl]; exact h1, [], l2, (), rfl, rfl, h2⟩
      | uncoded _ _ l2 hc h2 => exact ⟨[], l, (), rfl, by rw [hc, if_neg (by decide)], [], l, (), rfl, rfl, h2⟩

theorem pattern_eq (cbp : Nat) (intra pattern : Bool) {i : Nat} (hi : i < 6) :
    patternCode cbp intra pattern i = (intra || (pattern && codedBlock cbp i)) := by
  unfold patternCode codedBlock
  rw [decide_eq_true hi, Nat.shiftRight_eq_div_pow, Nat.and_one_is_mod]
  have : ∀ x : Nat, (x == 1) = decide (x = 1) := fun x => rfl
  rw [this, Bool.and_true]

theorem BlocksWord.congr {intra : Bool} {fmt : Nat} {c c' : Nat → Bool} : ∀ {k i : Nat} {l : List Bool},
    (∀ j, i ≤ j → j < i + k → c j = c' j) → BlocksWord intra fmt c k i l → BlocksWord intra fmt c' k i l := by
  intro k i l hc h
  induction h with
  | nil i => exact .nil i
  | coded k i l m hi h t ih =>
    exact .coded k i l m (by rw [← hc i (by omega) (by omega)]; exact hi) h (ih fun j h1 h2 => hc j (by omega) (by omega))
  | uncoded k i m hi t ih =>
    exact .uncoded k i m (by rw [← hc i (by omega) (by omega)]; exact hi) (ih fun j h1 h2 => hc j (by omega) (by omega))

theorem reads_finish {e : PicEnv} (he : Plain e) (row a : Nat) (m : Mode) (cbp : Nat) :
    Reads MB.br (mbFinish e row a m cbp) (fun _ => ()) (fun l _ =>
      BlocksWord m.type.intra e.pce.intraVLCFormat (fun i => m.type.intra || (m.type.pattern && codedBlock cbp i)) 6 0 l) := by
  unfold mbFinish
  rw [he.chroma]
  refine (Reads.seq (reads_mbBlocks e _ _ _ a row 6 0 Block.zero (by decide)) fun _ _ => Reads.pure (fun _ => ()) _).congr
    fun l u => ?_
  constructor
  · rintro ⟨l1, l2, -, rfl, h, rfl, -⟩
    rw [List.append_nil]
    exact BlocksWord.congr (fun j _ h2 => pattern_eq cbp _ _ (by omega)) h
  · intro h
    exact ⟨l, [], (), by simp, BlocksWord.congr (fun j _ h2 => (pattern_eq cbp _ _ (by omega)).symm) h, rfl, rfl⟩

/-! ### the coded block pattern -/

/-- The bits after which a decoder gives up. -/
def dead {α : Type} : Nat → Table α → List (List Bool)
  | 0, _ => []
  | f + 1, t => [false, true].flatMap fun b =>
      match (t.next b).hit with
      | some _ => []
      | none => if (t.next b).isEmpty then [[b]] else (dead f (t.next b)).map (b :: ·)

theorem huffLoop_err {α : Type} : ∀ (f : Nat) (t : Table α) (s s' : BR) (x : Err), huffLoop f t s = (.err x, s') →
    (∃ p ∈ dead f t, Took s p s') ∨ ∃ s1, Took s s.bits s1 ∧ s' = s1.failTo
  | 0, t, s, s', x, h => by cases h
  | f + 1, t, s, s', x, h => by
    unfold huffLoop at h
    cases hb : s.bits with
    | nil =>
      rw [Go.bind_err (BR.read1_short (by simp [hb]))] at h
      cases h
      exact .inr ⟨s, by simpa using BR.Took.refl s, rfl⟩
    | cons b l =>
      have h1 : BR.read1 s = (.ok b, s.adv 1) := by simp [BR.read1, hb]
      have took1 : Took s [b] (s.adv 1) := BR.read1_inv h1
      have hbits : (s.adv 1).bits = l := by have := took1.bits; rw [hb] at this; simpa using this.symm
      rw [Go.bind_ok h1] at h
      have mem : ∀ p, p ∈ (match (t.next b).hit with
          | some _ => []
          | none => if (t.next b).isEmpty then [[b]] else (dead f (t.next b)).map (b :: ·)) → p ∈ dead (f + 1) t := by
        intro p hp
        unfold dead
        rw [List.mem_flatMap]
        exact ⟨b, by cases b <;> simp, hp⟩
      cases hh : (t.next b).hit with
      | some w => rw [hh] at h; cases h
      | none =>
        rw [hh] at h mem
        dsimp only at h mem
        cases he : (t.next b).isEmpty with
        | true =>
          rw [he, if_pos rfl] at h
          cases h
          rw [he, if_pos rfl] at mem
          exact .inl ⟨[b], mem _ (by simp), took1⟩
        | false =>
          rw [he, if_neg (by decide)] at h mem
          rcases huffLoop_err f _ _ _ _ h with ⟨p, hp, t'⟩ | ⟨s1, t', e⟩
          · exact .inl ⟨b :: p, mem _ (List.mem_map.mpr ⟨p, hp, rfl⟩), took1.trans t'⟩
          · refine .inr ⟨s1, ?_, e⟩
            have := took1.trans t'
            rw [hbits] at this
            exact this

theorem dead_cbp : dead cbpTable.maxLen cbpTable = [zeros 9] := by decide +kernel

theorem cbp_err {s s' : BR} {x : Err} {cf : Nat} (hl : s.later = []) (h : codedBlockPattern cf s = (.err x, s')) :
    Took s (zeros 9) s' ∨ s'.bits = [] ∧ s'.later = [] := by
  unfold codedBlockPattern decodeCbp at h
  cases hx : huffDecode cbpTable s with
  | mk r s1 =>
    rw [hx] at h
    have h' : r = .err x ∧ s1 = s' := by
      cases r with
      | ok v => dsimp only at h; split at h <;> cases h
      | err y => dsimp only at h; split at h <;> cases h; exact ⟨rfl, rfl⟩
      | panic => cases h
      | hang => cases h
    obtain ⟨rfl, rfl⟩ := h'
    rcases huffLoop_err _ _ _ _ _ hx with ⟨p, hp, t⟩ | ⟨s2, t, rfl⟩
    · rw [dead_cbp, List.mem_singleton] at hp
      subst hp
      exact .inl t
    · right
      have := t.later
      unfold BR.failTo
      rw [this, hl]
      exact ⟨rfl, rfl⟩

theorem huffLoop_dead {α : Type} : ∀ (f : Nat) (t : Table α) (p r : List Bool) (s : BR), p ∈ dead f t → s.bits = p ++ r →
    ∃ x s', huffLoop f t s = (.err x, s') ∧ Took s p s'
  | 0, t, p, r, s, h, _ => by cases h
  | f + 1, t, p, r, s, h, hb => by
    unfold dead at h
    rw [List.mem_flatMap] at h
    obtain ⟨b, -, h⟩ := h
    have step : ∀ q, p = b :: q → BR.read1 s = (.ok b, s.adv 1) ∧ Took s [b] (s.adv 1) ∧ (s.adv 1).bits = q ++ r := by
      rintro q rfl
      have h1 : BR.read1 s = (.ok b, s.adv 1) := by simp [BR.read1, hb]
      have t1 : Took s [b] (s.adv 1) := BR.read1_inv h1
      exact ⟨h1, t1, by have := t1.bits; rw [hb] at this; simpa using this.symm⟩
    unfold huffLoop
    cases hh : (t.next b).hit with
    | some w => rw [hh] at h; cases h
    | none =>
      rw [hh] at h
      dsimp only at h
      cases he : (t.next b).isEmpty with
      | true =>
        rw [he, if_pos rfl, List.mem_singleton] at h
        obtain ⟨h1, t1, -⟩ := step [] h
        refine ⟨.missingHuffmanValue, s.adv 1, ?_, h ▸ t1⟩
        rw [Go.bind_ok h1, hh]
        dsimp only
        rw [he, if_pos rfl]
        rfl
      | false =>
        rw [he, if_neg (by decide), List.mem_map] at h
        obtain ⟨q, hq, hp⟩ := h
        obtain ⟨h1, t1, hb1⟩ := step q hp.symm
        obtain ⟨x, s', h2, t2⟩ := huffLoop_dead f _ q r _ hq hb1
        refine ⟨x, s', ?_, hp ▸ t1.trans t2⟩
        rw [Go.bind_ok h1, hh]
        dsimp only
        rw [he, if_neg (by decide)]
        exact h2

theorem cbp_dead {s : BR} {r : List Bool} (hb : s.bits = zeros 9 ++ r) :
    ∃ x s', codedBlockPattern 1 s = (.err x, s') ∧ Took s (zeros 9) s' := by
  obtain ⟨x, s', h, t⟩ := huffLoop_dead cbpTable.maxLen cbpTable (zeros 9) r s (by rw [dead_cbp]; simp) hb
  refine ⟨x, s', ?_, t⟩
  unfold codedBlockPattern decodeCbp
  have h : huffDecode cbpTable s = (.err x, s') := h
  rw [h]
  rfl

theorem cbp_run {c : List Bool} {v : Nat} (h : (c, v) ∈ isoCbp) {s : BR} {r : List Bool} (hb : s.bits = c ++ r) :
    ∃ s', codedBlockPattern 1 s = (.ok v, s') ∧ Took s c s' := by
  obtain ⟨bits, pos, stop, later⟩ := s
  dsimp only at hb
  subst hb
  have := huffDecode_code pf_cbp ((same_cbp _).2 h) r pos stop later
  refine ⟨⟨r, pos + c.length, stop, later⟩, ?_, ⟨rfl, rfl, rfl, rfl⟩⟩
  unfold codedBlockPattern decodeCbp
  rw [this]
  rfl

theorem cbp_inv {s s' : BR} {v : Nat} (h : codedBlockPattern 1 s = (.ok v, s')) : ∃ c, (c, v) ∈ isoCbp ∧ Took s c s' := by
  unfold codedBlockPattern decodeCbp at h
  cases hx : huffDecode cbpTable s with
  | mk r s1 =>
    rw [hx] at h
    cases r with
    | ok v' =>
      dsimp only at h
      rw [if_neg (by decide)] at h
      cases h
      obtain ⟨c, hc, t⟩ := huffDecode_inv (PrefixFree.ne_nil pf_cbp) (by decide) hx
      exact ⟨c, (same_cbp _).1 hc, t⟩
    | err y => dsimp only at h; rw [if_neg (by decide)] at h; cases h
    | panic => cases h
    | hang => cases h

theorem mlift_err {α : Type} {m : Go BR α} {s s' : MB} {x : Err} (h : MB.lift m s = (.err x, s')) :
    m s.br = (.err x, s'.br) := by
  unfold MB.lift at h
  rw [Prod.mk.injEq] at h
  obtain ⟨h1, rfl⟩ := h
  exact Prod.ext h1 rfl

/-! ### macroblocks -/

theorem mb_fwd {e : PicEnv} (he : Plain e) {l r : List Bool} {s : MB} (hl : MbWord e l) (hb : s.br.bits = l ++ r)
    (hr : 24 ≤ r.length) (row : Nat) (addr : Option Nat) :
    (macroblock e row addr s).1 = .panic ∨ ∃ a s', macroblock e row addr s = (.ok a, s') ∧ Took s.br l s'.br := by
  obtain ⟨t, head, pat, blocks, cbp, h, hPat, hBlocks⟩ := hl
  rw [macroblock_split]
  rcases (reads_head he row addr).fwd head t s (pat ++ blocks ++ r) h (by rw [hb]; simp) (by simp only [List.length_append]; omega)
    with hp | ⟨x, s1, h1, rfl, t1⟩
  · exact .inl (Reads.bind_panic' hp)
  rw [Go.bind_ok h1]
  have hb1 : s1.br.bits = (pat ++ blocks) ++ r := Reads.took_split t1 hb
  unfold mbPattern
  have fin : ∀ (cbp' : Nat) (s2 : MB), s2.br.bits = blocks ++ r → Took s1.br pat s2.br →
      BlocksWord x.2.type.intra e.pce.intraVLCFormat (fun i => x.2.type.intra || (x.2.type.pattern && codedBlock cbp' i)) 6 0 blocks →
      (mbFinish e row (newAddress addr x.1) x.2 cbp' s2).1 = .panic ∨
      ∃ a s', mbFinish e row (newAddress addr x.1) x.2 cbp' s2 = (.ok a, s') ∧ Took s.br (head ++ (pat ++ blocks)) s'.br := by
    intro cbp' s2 hb2 t2 hw
    rcases (reads_finish he row (newAddress addr x.1) x.2 cbp').fwd blocks () s2 r hw hb2 hr with hp | ⟨a, s3, h3, -, t3⟩
    · exact .inl hp
    · exact .inr ⟨a, s3, h3, t1.trans (t2.trans t3)⟩
  cases hp : x.2.type.pattern with
  | true =>
    rw [if_pos rfl]
    rw [hp, if_pos rfl] at hPat
    obtain ⟨s2, h2, t2⟩ := cbp_run hPat (s := s1.br) (r := blocks ++ r) (by rw [hb1, List.append_assoc])
    unfold mbCoded
    rw [he.chroma, mlift_run h2]
    exact fin cbp _ (Reads.took_split t2 hb1) t2 hBlocks
  | false =>
    rw [if_neg (by decide)]
    rw [hp, if_neg (by decide)] at hPat
    subst hPat
    refine fin 0 s1 (by rw [hb1]; simp) (.refl _) (BlocksWord.congr (fun j _ _ => ?_) hBlocks)
    rw [hp]; simp

theorem broken_fwd {e : PicEnv} (he : Plain e) {l r : List Bool} {s : MB} (hl : BrokenWord e l) (hb : s.br.bits = l ++ r)
    (hr : 24 ≤ r.length) (row : Nat) (addr : Option Nat) :
    (macroblock e row addr s).1 = .panic ∨ ∃ s', macroblock e row addr s = (.ok 0, s') ∧ Took s.br l s'.br := by
  obtain ⟨t, head, h, hp⟩ := hl
  rw [macroblock_split]
  rcases (reads_head he row addr).fwd head t s (zeros 9 ++ r) h (by rw [hb]; simp) (by simp only [List.length_append]; omega)
    with hp | ⟨x, s1, h1, rfl, t1⟩
  · exact .inl (Reads.bind_panic' hp)
  rw [Go.bind_ok h1]
  have hb1 : s1.br.bits = zeros 9 ++ r := Reads.took_split t1 hb
  unfold mbPattern
  rw [if_pos hp]
  obtain ⟨y, s2, h2, t2⟩ := cbp_dead hb1
  have h3 : MB.lift (codedBlockPattern 1) s1 = (.err y, { s1 with br := s2 }) := by
    unfold MB.lift
    rw [h2]
  unfold mbCoded
  rw [he.chroma, h3]
  exact .inr ⟨_, rfl, t1.trans t2⟩

theorem lax_fwd {e : PicEnv} (he : Plain e) {l r : List Bool} {s : MB} (hl : LaxWord e l) (hb : s.br.bits = l ++ r)
    (hr : 24 ≤ r.length) (row : Nat) (addr : Option Nat) :
    (macroblock e row addr s).1 = .panic ∨ ∃ a s', macroblock e row addr s = (.ok a, s') ∧ Took s.br l s'.br := by
  rcases hl with hl | hl
  · exact mb_fwd he hl hb hr row addr
  · exact (broken_fwd he hl hb hr row addr).imp_right fun ⟨s', h⟩ => ⟨0, s', h⟩

theorem mb_bwd {e : PicEnv} (he : Plain e) {s s' : MB} {a : Nat} {row : Nat} {addr : Option Nat} (hl : s.br.later = [])
    (h : macroblock e row addr s = (.ok a, s')) :
    (∃ l, (MbWord e l ∨ BrokenWord e l) ∧ Took s.br l s'.br) ∨ s'.br.bits = [] ∧ s'.br.later = [] := by
  rw [macroblock_split] at h
  obtain ⟨x, s1, h1, h2⟩ := Go.bind_eq_ok h
  obtain ⟨head, hh, t1⟩ := (reads_head he row addr).bwd _ _ _ h1
  unfold mbPattern at h2
  cases hp : x.2.type.pattern with
  | true =>
    rw [hp, if_pos rfl] at h2
    unfold mbCoded at h2
    rw [he.chroma] at h2
    cases hx : MB.lift (codedBlockPattern 1) s1 with
    | mk r s2 =>
      rw [hx] at h2
      cases r with
      | ok cbp =>
        dsimp only at h2
        obtain ⟨pat, hc, t2⟩ := cbp_inv (mlift_inv hx)
        obtain ⟨blocks, hw, t3⟩ := (reads_finish he row _ x.2 cbp).bwd _ _ _ h2
        exact .inl ⟨_, .inl (.mk x.2.type head pat blocks cbp hh (by rw [hp, if_pos rfl]; exact hc) hw),
          t1.trans (t2.trans t3)⟩
      | err y =>
        dsimp only at h2
        cases h2
        have hx' : codedBlockPattern 1 s1.br = (.err y, s'.br) := mlift_err hx
        rcases cbp_err (by rw [t1.later, hl]) hx' with t2 | hz
        · exact .inl ⟨_, .inr (.mk x.2.type head hh hp), t1.trans t2⟩
        · exact .inr hz
      | panic => cases h2
      | hang => cases h2
  | false =>
    rw [hp, if_neg (by decide)] at h2
    obtain ⟨blocks, hw, t3⟩ := (reads_finish he row _ x.2 0).bwd _ _ _ h2
    have w := MbWord.mk x.2.type head [] blocks 0 hh (by rw [hp, if_neg Bool.false_ne_true]) hw
    exact .inl ⟨_, .inl w, t1.trans t3⟩

end Mpeg.Video
