/-
The pack reader on program streams that do not end with the end code.
-/
import Verif.PS.ReaderLemmas
set_option linter.all false
namespace Mpeg.PS
open Spec

/-- packets of the current pack, packs, and anything after them -/
def openBits (is : List Item) (ps : List Pack) (rest : List Bool) : List Bool :=
  is.flatMap encItem ++ (ps.flatMap encPack ++ rest)

/-- One Read that reaches for more than the remainder: it is satisfied, or it arrives at `rest`. -/
theorem step_open (rest : List Bool) (stop : Err) (later : List (List Bool × Err)) :
    ∀ (n : Nat) (is : List Item) (ps : List Pack) (fuel k pos : Nat) (out : List UInt8),
    count is ps = n → n < fuel → 0 < k → (∀ i ∈ is, i.WF) → GoodPacks ps →
    (k ≤ (payloads is ps).length →
      ∃ is' ps' pos' rem', (∀ i ∈ is', i.WF) ∧ GoodPacks ps' ∧
        rem' ++ payloads is' ps' = (payloads is ps).drop k ∧
        PackReader.step fuel k out ⟨⟨openBits is ps rest, pos, stop, later⟩, []⟩ =
          (.ok ⟨out ++ (payloads is ps).take k, (out ++ (payloads is ps).take k).length, none⟩,
            ⟨⟨openBits is' ps' rest, pos', stop, later⟩, rem'⟩)) ∧
    ((payloads is ps).length < k →
      ∃ pos' f', PackReader.step fuel k out ⟨⟨openBits is ps rest, pos, stop, later⟩, []⟩ =
          PackReader.step (f' + 1) (k - (payloads is ps).length) (out ++ payloads is ps)
            ⟨⟨rest, pos', stop, later⟩, []⟩) := by
  intro n
  induction n with
  | zero =>
    intro is ps fuel k pos out hn hf hk hi hps
    have h1 : is = [] := by
      cases is with
      | nil => rfl
      | cons a l => simp [count] at hn
    have h2 : ps = [] := by
      cases ps with
      | nil => rfl
      | cons p l =>
        have := (hps p (List.mem_cons_self ..)).2
        cases hpi : p.items with
        | nil => exact absurd hpi this
        | cons a b => simp [count, hpi] at hn
    subst h1 h2
    obtain ⟨f, rfl⟩ : ∃ f, fuel = f + 1 := ⟨fuel - 1, by omega⟩
    exact ⟨fun h => by simp [payloads] at h; omega, fun _ => ⟨pos, f, by simp [openBits, payloads]⟩⟩
  | succ n ih =>
    intro is ps fuel k pos out hn hf hk hi hps
    obtain ⟨f, rfl⟩ : ∃ f, fuel = f + 1 := ⟨fuel - 1, by omega⟩
    -- a packet `i` is consumed, `is'`, `ps'` remain
    have main : ∀ (i : Item) (is' : List Item) (ps' : List Pack) (pos0 : Nat), i.WF → (∀ i ∈ is', i.WF) →
        GoodPacks ps' → count is' ps' = n → payloads is ps = i.payload ++ payloads is' ps' →
        PackReader.step (f + 1) k out ⟨⟨openBits is ps rest, pos, stop, later⟩, []⟩ =
          PackReader.more (PackReader.step f) k out ⟨⟨encItem i ++ openBits is' ps' rest, pos0, stop, later⟩, []⟩ →
        (k ≤ (payloads is ps).length →
          ∃ is' ps' pos' rem', (∀ i ∈ is', i.WF) ∧ GoodPacks ps' ∧
            rem' ++ payloads is' ps' = (payloads is ps).drop k ∧
            PackReader.step (f + 1) k out ⟨⟨openBits is ps rest, pos, stop, later⟩, []⟩ =
              (.ok ⟨out ++ (payloads is ps).take k, (out ++ (payloads is ps).take k).length, none⟩,
                ⟨⟨openBits is' ps' rest, pos', stop, later⟩, rem'⟩)) ∧
        ((payloads is ps).length < k →
          ∃ pos' f', PackReader.step (f + 1) k out ⟨⟨openBits is ps rest, pos, stop, later⟩, []⟩ =
              PackReader.step (f' + 1) (k - (payloads is ps).length) (out ++ payloads is ps)
                ⟨⟨rest, pos', stop, later⟩, []⟩) := by
      intro i is' ps' pos0 hwi hwi' hwp' hc hpay hstep
      rw [hstep]
      obtain ⟨pos1, hm⟩ := more_item (PackReader.step f) hwi (k := k) (out := out) (r := openBits is' ps' rest)
        (pos := pos0) (stop := stop) (later := later) (rem := [])
      rw [hm, hpay]
      by_cases hkl : k ≤ i.payload.length
      · rw [if_pos hkl]
        refine ⟨fun _ => ⟨is', ps', pos1, i.payload.drop k, hwi', hwp', ?_, ?_⟩, fun h => ?_⟩
        · rw [List.drop_append_of_le_length hkl]
        · rw [List.take_append_of_le_length hkl]; rfl
        · simp only [List.length_append] at h; omega
      · rw [if_neg hkl]
        obtain ⟨g1, g2⟩ := ih is' ps' f (k - i.payload.length) pos1 (out ++ i.payload) hc (by omega) (by omega)
          hwi' hwp'
        have htake : (i.payload ++ payloads is' ps').take k =
            i.payload ++ (payloads is' ps').take (k - i.payload.length) := by
          rw [List.take_append, List.take_of_length_le (by omega)]
        have hdrop : (i.payload ++ payloads is' ps').drop k = (payloads is' ps').drop (k - i.payload.length) := by
          rw [List.drop_append, List.drop_of_length_le (by omega), List.nil_append]
        refine ⟨fun h => ?_, fun h => ?_⟩
        · simp only [List.length_append] at h
          obtain ⟨is2, ps2, pos2, rem2, a1, a2, a3, a4⟩ := g1 (by omega)
          refine ⟨is2, ps2, pos2, rem2, a1, a2, by rw [hdrop]; exact a3, ?_⟩
          rw [a4, htake, List.append_assoc]
        · simp only [List.length_append] at h
          obtain ⟨pos2, f2, a4⟩ := g2 (by omega)
          refine ⟨pos2, f2, ?_⟩
          rw [a4, List.append_assoc, List.length_append, Nat.sub_sub]
    cases is with
    | cons i is =>
      have hwi := hi i (List.mem_cons_self ..)
      refine main i is ps pos hwi (fun j hj => hi j (List.mem_cons_of_mem _ hj)) hps ?_ ?_ ?_
      · simp only [count, List.length_cons] at hn ⊢; omega
      · simp only [payloads, List.flatMap_cons, List.append_assoc]
      · obtain ⟨v, hv1, hv2, _, _, _, hp⟩ := peek_item (r := openBits is ps rest) (pos := pos) (stop := stop)
          (later := later) i hwi
        have e : openBits (i :: is) ps rest = encItem i ++ openBits is ps rest := by
          simp only [openBits, List.flatMap_cons, List.append_assoc]
        rw [e]
        simp only [PackReader.step, hp, hv1, hv2, if_false]
    | nil =>
      cases ps with
      | nil => simp [count] at hn
      | cons p ps =>
        obtain ⟨⟨hw1, hw2⟩, hne⟩ := hps p (List.mem_cons_self ..)
        cases hpi : p.items with
        | nil => exact absurd hpi hne
        | cons i is =>
          rw [hpi] at hw2
          have hwi := hw2 i (List.mem_cons_self ..)
          refine main i is ps (pos + (encPHdr p.hdr).length) hwi (fun j hj => hw2 j (List.mem_cons_of_mem _ hj))
            (fun q hq => hps q (List.mem_cons_of_mem _ hq)) ?_ ?_ ?_
          · simp only [count, List.length_nil, List.map_cons, List.sum_cons, hpi, List.length_cons] at hn ⊢; omega
          · simp only [payloads, List.flatMap_nil, List.nil_append, List.flatMap_cons, Pack.payload, hpi,
              List.append_assoc]
          · have e : openBits [] (p :: ps) rest = encPHdr p.hdr ++ (encItem i ++ openBits is ps rest) := by
              simp only [openBits, List.flatMap_nil, List.nil_append, List.flatMap_cons, encPack, hpi,
                List.append_assoc]
            obtain ⟨v, hv1, hv2, hv3, hv4, ⟨t, ht⟩, _⟩ := peek_item (r := openBits is ps rest) (pos := pos)
              (stop := stop) (later := later) i hwi
            have hfol : Follows p.hdr (encItem i ++ openBits is ps rest) := by
              unfold Follows
              split
              · exact ⟨v, t, hv4, hv3, ht⟩
              · obtain ⟨t, ht⟩ := encItem_code i hwi
                rw [ht]
                exact ⟨_, by
                  rw [show bitsOf 32 (0x100 + i.id) = bitsOf 1 0 ++ bitsOf 31 (0x100 + i.id) by
                    rw [bitsOf_append 1 31, show (0x100 + i.id) / 2 ^ 31 = 0 by
                      have := item_id hwi; omega], List.append_assoc]; rfl⟩
            have hp : BR.peek 32 ⟨encPHdr p.hdr ++ (encItem i ++ openBits is ps rest), pos, stop, later⟩ =
                (.ok packStartCode, ⟨encPHdr p.hdr ++ (encItem i ++ openBits is ps rest), pos, stop, later⟩) := by
              simp only [encPHdr, encPHdrFixed, List.append_assoc]
              exact BR.peek_bitsOf 32 packStartCode
            rw [e]
            simp only [PackReader.step, hp, newPackHeader_enc p.hdr hw1 hfol,
              show packStartCode ≠ programEndCode by decide, if_false, if_true]


/-- The reader cannot get on: fewer than four bytes are left of the source, or the next three are not a start code
prefix. -/
def Stuck (b : BR) : Prop :=
  (b.bits.length < 32 ∧ b.later = []) ∨ (32 ≤ b.bits.length ∧ natOfBits (b.bits.take 24) ≠ 1)

theorem prefix_of_code {l : List Bool} {c : Nat} (hl : 32 ≤ l.length) (h : natOfBits (l.take 32) = 0x100 + c) (hc : c < 256) :
    natOfBits (l.take 24) = 1 := by
  have e : l.take 32 = l.take 24 ++ (l.drop 24).take 8 := by
    rw [← List.take_add]
  have h8 : ((l.drop 24).take 8).length = 8 := by simp; omega
  have hlt : natOfBits ((l.drop 24).take 8) < 2 ^ 8 := by
    have := natOfBits_lt ((l.drop 24).take 8)
    rwa [h8] at this
  rw [e, natOfBits_append, h8] at h
  omega

theorem step_stuck {b : BR} (h : Stuck b) (f k : Nat) (out : List UInt8) :
    ∃ b', Stuck b' ∧ PackReader.step (f + 1) k out ⟨b, []⟩ = (.ok ⟨out, 0, none⟩, ⟨b', []⟩) := by
  rcases h with ⟨h1, h2⟩ | ⟨h1, h2⟩
  · refine ⟨b.failTo, .inl ?_, ?_⟩
    · simp [BR.failTo, h2]
    · simp only [PackReader.step, BR.peek_short h1]
  · refine ⟨b, .inr ⟨h1, h2⟩, ?_⟩
    have hp := BR.peek_ok (s := b) h1
    have hn1 : natOfBits (b.bits.take 32) ≠ programEndCode := fun hc => h2 (prefix_of_code (c := 0xb9) h1 hc (by decide))
    have hn2 : natOfBits (b.bits.take 32) ≠ packStartCode := fun hc => h2 (prefix_of_code (c := 0xba) h1 hc (by decide))
    have hq : newPacket b = (.err .startCodePrefixNotFound, b) := by
      have h24 : BR.peek 24 b = (.ok (natOfBits (b.bits.take 24)), b) := BR.peek_ok (by omega)
      have hpre : PES.prefix24 b = (.err .startCodePrefixNotFound, b) := by
        unfold PES.prefix24
        rw [Go.bind_ok h24]
        have : (natOfBits (b.bits.take 24) == PES.startCodePrefix) = false := by
          simpa [PES.startCodePrefix] using h2
        rw [this]
        rfl
      unfold newPacket PES.Packet.next
      have hl : PES.St.lift PES.prefix24 ⟨({} : PES.Packet), b⟩ = (.err .startCodePrefixNotFound, ⟨{}, b⟩) := by
        simp [PES.St.lift, hpre]
      rw [Go.bind_err hl]
    simp only [PackReader.step, hp, hn1, hn2, if_false, PackReader.more, hq]

/-- The reader stands in a program without end code of which the bytes `c` have not been delivered. -/
def Open (stop : Err) (later : List (List Bool × Err)) (rest : List Bool) (r : PackReader) (c : List UInt8) : Prop :=
  (∃ is ps pos, (∀ i ∈ is, i.WF) ∧ GoodPacks ps ∧ r.br = ⟨openBits is ps rest, pos, stop, later⟩ ∧
    c = r.remainder ++ payloads is ps)

theorem open_enough {rest : List Bool} {stop : Err} {later : List (List Bool × Err)} {r : PackReader}
    {c : List UInt8} (h : Open stop later rest r c) {n : Nat} (hn : n ≤ c.length) :
    ∃ r', PackReader.read n r = (.ok ⟨c.take n, n, none⟩, r') ∧ Open stop later rest r' (c.drop n) := by
  obtain ⟨is, ps, pos, h1, h2, h3, rfl⟩ := h
  unfold PackReader.read
  by_cases hr : n ≤ r.remainder.length
  · rw [if_pos hr]
    refine ⟨{ r with remainder := r.remainder.drop n }, by rw [List.take_append_of_le_length hr],
      is, ps, pos, h1, h2, h3, ?_⟩
    rw [List.drop_append_of_le_length hr]
  · rw [if_neg hr]
    rw [List.length_append] at hn
    have hcount : count is ps < bitsLeft r.br + 1 := by
      rw [h3]
      have e1 := length_items is h1
      have e2 := count_le ps h2
      simp only [count, bitsLeft, openBits, List.length_append]
      omega
    obtain ⟨is', ps', pos', rem', a1, a2, a3, a4⟩ := (step_open rest stop later (count is ps) is ps
      (bitsLeft r.br + 1) (n - r.remainder.length) pos r.remainder rfl hcount (by omega) h1 h2).1 (by omega)
    refine ⟨⟨⟨openBits is' ps' rest, pos', stop, later⟩, rem'⟩, ?_, is', ps', pos', a1, a2, rfl, ?_⟩
    · rw [h3] at a4 ⊢
      rw [a4]
      have : (r.remainder ++ payloads is ps).take n = r.remainder ++ (payloads is ps).take (n - r.remainder.length) := by
        rw [List.take_append, List.take_of_length_le (by omega)]
      rw [this]
      simp; omega
    · rw [a3, List.drop_append, List.drop_of_length_le (by omega), List.nil_append]

theorem open_short {rest : List Bool} {stop : Err} {later : List (List Bool × Err)} {r : PackReader}
    (hs : ∀ pos, Stuck ⟨rest, pos, stop, later⟩)
    {c : List UInt8} (h : Open stop later rest r c) {n : Nat} (hn : c.length < n) :
    ∃ b', Stuck b' ∧ PackReader.read n r = (.ok ⟨c, 0, none⟩, ⟨b', []⟩) := by
  obtain ⟨is, ps, pos, h1, h2, h3, rfl⟩ := h
  rw [List.length_append] at hn
  unfold PackReader.read
  rw [if_neg (by omega)]
  have hcount : count is ps < bitsLeft r.br + 1 := by
    rw [h3]
    have e1 := length_items is h1
    have e2 := count_le ps h2
    simp only [count, bitsLeft, openBits, List.length_append]
    omega
  obtain ⟨pos', f', a4⟩ := (step_open rest stop later (count is ps) is ps
    (bitsLeft r.br + 1) (n - r.remainder.length) pos r.remainder rfl hcount (by omega) h1 h2).2 (by omega)
  obtain ⟨b', hb, hst⟩ := step_stuck (hs pos') f' (n - r.remainder.length - (payloads is ps).length)
    (r.remainder ++ payloads is ps)
  refine ⟨b', hb, ?_⟩
  rw [h3] at a4 ⊢
  rw [a4, hst]

theorem read_stuck {b : BR} (h : Stuck b) (n : Nat) :
    ∃ b', Stuck b' ∧ PackReader.read n ⟨b, []⟩ = (.ok ⟨[], 0, none⟩, ⟨b', []⟩) := by
  unfold PackReader.read
  by_cases hn : n ≤ ([] : List UInt8).length
  · have : n = 0 := by simpa using hn
    subst this
    exact ⟨b, h, by simp⟩
  · rw [if_neg hn]
    exact step_stuck h _ _ _

end Mpeg.PS
