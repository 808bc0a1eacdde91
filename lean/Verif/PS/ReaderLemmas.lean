/-
The pack reader on well-formed program streams.
-/
import Verif.PS.Lemmas
import Verif.TS.DeliverLemmas
set_option linter.all false
namespace Mpeg.PS
open Spec

section
variable {r : List Bool} {pos : Nat} {stop : Err} {later : List (List Bool × Err)}

theorem encStart_code (id len : Nat) (hid : id < 256) :
    PES.Spec.encStart id len ++ r = bitsOf 32 (0x100 + id) ++ (bitsOf 16 len ++ r) := by
  have h1 : bitsOf 32 (0x100 + id) = bitsOf 24 1 ++ bitsOf 8 id := by
    rw [bitsOf_append 24 8, show (0x100 + id) / 2 ^ 8 = 1 by omega, ← bitsOf_mod 8 (0x100 + id) 8 (Nat.le_refl _),
      show (0x100 + id) % 2 ^ 8 = id by omega]
  rw [h1]
  simp only [PES.Spec.encStart, List.append_assoc]

/-- the stream id of a packet -/
def Spec.Item.id : Item → Nat
  | .media id _ _ => id
  | .padding _ => 0xbe

theorem item_id {i : Item} (h : i.WF) : 0xbc ≤ i.id ∧ i.id < 256 := by
  cases i with
  | media id hd d => exact ⟨h.1, h.2.1⟩
  | padding d => exact ⟨(by show 0xbc ≤ 0xbe; decide), (by show 0xbe < 256; decide)⟩

theorem encItem_code (i : Item) (h : i.WF) : ∃ t, ∀ r, encItem i ++ r = bitsOf 32 (0x100 + i.id) ++ (t ++ r) := by
  have hid := (item_id h).2
  cases i with
  | media id hd d =>
    refine ⟨bitsOf 16 (3 + hd.dataLen + d.length) ++ (PES.Spec.encHdr hd ++ bitsOfBytes d), fun r => ?_⟩
    simp only [encItem, PES.Spec.encPacket, List.append_assoc]
    rw [encStart_code id _ hid]; rfl
  | padding d =>
    refine ⟨bitsOf 16 d.length ++ bitsOfBytes d, fun r => ?_⟩
    simp only [encItem, PES.Spec.encPadding, List.append_assoc]
    rw [encStart_code _ _ (by decide)]; rfl

theorem peek_item (i : Item) (h : i.WF) : ∃ v, v ≠ programEndCode ∧ v ≠ packStartCode ∧
    v ≠ systemHeaderStartCode ∧ v < 2 ^ 32 ∧ (∃ t, encItem i ++ r = bitsOf 32 v ++ t) ∧
    BR.peek 32 ⟨encItem i ++ r, pos, stop, later⟩ = (.ok v, ⟨encItem i ++ r, pos, stop, later⟩) := by
  obtain ⟨t, ht⟩ := encItem_code i h
  have := item_id h
  refine ⟨0x100 + i.id, by simp only [programEndCode]; omega, by simp only [packStartCode]; omega,
    by simp only [systemHeaderStartCode]; omega, by omega, ⟨_, ht r⟩, ?_⟩
  rw [ht r, BR.peek_bitsOf, Nat.mod_eq_of_lt (by omega)]

theorem newPacket_item (i : Item) (h : i.WF) : ∃ p n, p.payload = i.payload ∧
    newPacket ⟨encItem i ++ r, pos, stop, later⟩ = (.ok p, ⟨r, pos + n, stop, later⟩) ∧
    n = (encItem i).length ∧ 48 ≤ n := by
  cases i with
  | media id hd d =>
    obtain ⟨h0, h1, h2, h3, h4, h5⟩ := h
    have hh : PES.hasPESHeader id = true := by
      simp [PES.Spec.noHeaderIds] at h2; simp [PES.hasPESHeader, h2]
    refine ⟨⟨id, 3 + hd.dataLen + d.length, some (PES.viewHdr hd), d⟩, 8 * (9 + hd.dataLen + d.length), rfl, ?_, ?_,
      by omega⟩
    · unfold newPacket
      simp only [encItem]
      rw [PES.next_packet {} id hd d h1 hh h3 h4 h5]
    · have := PES.length_hdrBits hd hd.dataLen h3.2.2.2.1
      simp only [List.length_append, length_bitsOf, length_bitsOfBytes] at this
      simp only [encItem, PES.Spec.encPacket, PES.Spec.encHdr, PES.Spec.encFixed, PES.Spec.encStart,
        List.length_append, length_bitsOf, length_bitsOfBytes]
      simp only [List.length_cons, List.length_nil] at this ⊢
      omega
  | padding d =>
    refine ⟨{ streamID := 0xbe, packetLength := d.length }, 8 * (6 + d.length), rfl, ?_, ?_, by omega⟩
    · unfold newPacket
      simp only [encItem]
      rw [PES.next_padding {} d h]
    · simp [encItem, PES.Spec.encPadding, PES.Spec.encStart]; omega
end

/-- packets still to come: those of the current pack and the following packs -/
def payloads (is : List Item) (ps : List Pack) : List UInt8 :=
  is.flatMap Item.payload ++ ps.flatMap Pack.payload

/-- the rest of a program: packets of the current pack, packs, the end code, arbitrary data -/
def progBits (is : List Item) (ps : List Pack) (tail : List Bool) : List Bool :=
  is.flatMap encItem ++ (ps.flatMap encPack ++ (bitsOf 32 programEndCode ++ tail))

def GoodPacks (ps : List Pack) : Prop := ∀ p ∈ ps, p.WF ∧ p.items ≠ []

/-- number of packets -/
def count (is : List Item) (ps : List Pack) : Nat := is.length + (ps.map (fun p => p.items.length)).sum

theorem more_item (again : Nat → List UInt8 → Go PackReader RR) {i : Item} (h : i.WF) {k : Nat} {out : List UInt8}
    {r : List Bool} {pos : Nat} {stop : Err} {later : List (List Bool × Err)} {rem : List UInt8} :
    ∃ pos', PackReader.more again k out ⟨⟨encItem i ++ r, pos, stop, later⟩, rem⟩ =
      if k ≤ i.payload.length then
        (.ok ⟨out ++ i.payload.take k, (out ++ i.payload.take k).length, none⟩,
          ⟨⟨r, pos', stop, later⟩, rem ++ i.payload.drop k⟩)
      else again (k - i.payload.length) (out ++ i.payload) ⟨⟨r, pos', stop, later⟩, rem⟩ := by
  obtain ⟨p, n, hp, hn, _, _⟩ := newPacket_item (r := r) (pos := pos) (stop := stop) (later := later) i h
  refine ⟨pos + n, ?_⟩
  unfold PackReader.more
  simp only [hn, hp]

/-- One Read that reaches for more than the remainder. -/
theorem step_prog (tail : List Bool) (stop : Err) (later : List (List Bool × Err)) :
    ∀ (n : Nat) (is : List Item) (ps : List Pack) (fuel k pos : Nat) (out : List UInt8),
    count is ps = n → n < fuel → 0 < k → (∀ i ∈ is, i.WF) → GoodPacks ps →
    (k ≤ (payloads is ps).length →
      ∃ is' ps' pos' rem', (∀ i ∈ is', i.WF) ∧ GoodPacks ps' ∧
        rem' ++ payloads is' ps' = (payloads is ps).drop k ∧
        PackReader.step fuel k out ⟨⟨progBits is ps tail, pos, stop, later⟩, []⟩ =
          (.ok ⟨out ++ (payloads is ps).take k, (out ++ (payloads is ps).take k).length, none⟩,
            ⟨⟨progBits is' ps' tail, pos', stop, later⟩, rem'⟩)) ∧
    ((payloads is ps).length < k →
      ∃ pos', PackReader.step fuel k out ⟨⟨progBits is ps tail, pos, stop, later⟩, []⟩ =
          (.ok ⟨out ++ payloads is ps, (out ++ payloads is ps).length, some .eof⟩,
            ⟨⟨tail, pos', stop, later⟩, []⟩)) := by
  intro n
  induction n with
  | zero =>
    intro is ps fuel k pos out hn hf hk hi hps
    have h1 : is = [] := by
      cases is with
      | nil => rfl
      | cons a l => simp [count] at hn
    have h2 : ps = [] := by
      cases ps with
      | nil => rfl
      | cons p l =>
        have := (hps p (List.mem_cons_self ..)).2
        cases hpi : p.items with
        | nil => exact absurd hpi this
        | cons a b => simp [count, hpi] at hn
    subst h1 h2
    refine ⟨fun h => by simp [payloads] at h; omega, fun _ => ⟨pos + 32, ?_⟩⟩
    obtain ⟨f, rfl⟩ : ∃ f, fuel = f + 1 := ⟨fuel - 1, by omega⟩
    have hp : BR.peek 32 ⟨bitsOf 32 programEndCode ++ tail, pos, stop, later⟩ =
        (.ok programEndCode, ⟨bitsOf 32 programEndCode ++ tail, pos, stop, later⟩) :=
      BR.peek_bitsOf 32 programEndCode
    simp [PackReader.step, progBits, payloads, hp]
  | succ n ih =>
    intro is ps fuel k pos out hn hf hk hi hps
    obtain ⟨f, rfl⟩ : ∃ f, fuel = f + 1 := ⟨fuel - 1, by omega⟩
    -- a packet `i` is consumed, `is'`, `ps'` remain
    have main : ∀ (i : Item) (is' : List Item) (ps' : List Pack) (pos0 : Nat), i.WF → (∀ i ∈ is', i.WF) →
        GoodPacks ps' → count is' ps' = n → payloads is ps = i.payload ++ payloads is' ps' →
        PackReader.step (f + 1) k out ⟨⟨progBits is ps tail, pos, stop, later⟩, []⟩ =
          PackReader.more (PackReader.step f) k out ⟨⟨encItem i ++ progBits is' ps' tail, pos0, stop, later⟩, []⟩ →
        (k ≤ (payloads is ps).length →
          ∃ is' ps' pos' rem', (∀ i ∈ is', i.WF) ∧ GoodPacks ps' ∧
            rem' ++ payloads is' ps' = (payloads is ps).drop k ∧
            PackReader.step (f + 1) k out ⟨⟨progBits is ps tail, pos, stop, later⟩, []⟩ =
              (.ok ⟨out ++ (payloads is ps).take k, (out ++ (payloads is ps).take k).length, none⟩,
                ⟨⟨progBits is' ps' tail, pos', stop, later⟩, rem'⟩)) ∧
        ((payloads is ps).length < k →
          ∃ pos', PackReader.step (f + 1) k out ⟨⟨progBits is ps tail, pos, stop, later⟩, []⟩ =
              (.ok ⟨out ++ payloads is ps, (out ++ payloads is ps).length, some .eof⟩,
                ⟨⟨tail, pos', stop, later⟩, []⟩)) := by
      intro i is' ps' pos0 hwi hwi' hwp' hc hpay hstep
      rw [hstep]
      obtain ⟨pos1, hm⟩ := more_item (PackReader.step f) hwi (k := k) (out := out) (r := progBits is' ps' tail)
        (pos := pos0) (stop := stop) (later := later) (rem := [])
      rw [hm, hpay]
      by_cases hkl : k ≤ i.payload.length
      · rw [if_pos hkl]
        refine ⟨fun _ => ⟨is', ps', pos1, i.payload.drop k, hwi', hwp', ?_, ?_⟩, fun h => ?_⟩
        · rw [List.drop_append_of_le_length hkl]
        · rw [List.take_append_of_le_length hkl]; rfl
        · simp only [List.length_append] at h; omega
      · rw [if_neg hkl]
        obtain ⟨g1, g2⟩ := ih is' ps' f (k - i.payload.length) pos1 (out ++ i.payload) hc (by omega) (by omega)
          hwi' hwp'
        have htake : (i.payload ++ payloads is' ps').take k =
            i.payload ++ (payloads is' ps').take (k - i.payload.length) := by
          rw [List.take_append, List.take_of_length_le (by omega)]
        have hdrop : (i.payload ++ payloads is' ps').drop k = (payloads is' ps').drop (k - i.payload.length) := by
          rw [List.drop_append, List.drop_of_length_le (by omega), List.nil_append]
        refine ⟨fun h => ?_, fun h => ?_⟩
        · simp only [List.length_append] at h
          obtain ⟨is2, ps2, pos2, rem2, a1, a2, a3, a4⟩ := g1 (by omega)
          refine ⟨is2, ps2, pos2, rem2, a1, a2, by rw [hdrop]; exact a3, ?_⟩
          rw [a4, htake, List.append_assoc]
        · simp only [List.length_append] at h
          obtain ⟨pos2, a4⟩ := g2 (by omega)
          exact ⟨pos2, by rw [a4, List.append_assoc]⟩
    cases is with
    | cons i is =>
      have hwi := hi i (List.mem_cons_self ..)
      refine main i is ps pos hwi (fun j hj => hi j (List.mem_cons_of_mem _ hj)) hps ?_ ?_ ?_
      · simp only [count, List.length_cons] at hn ⊢; omega
      · simp only [payloads, List.flatMap_cons, List.append_assoc]
      · obtain ⟨v, hv1, hv2, _, _, _, hp⟩ := peek_item (r := progBits is ps tail) (pos := pos) (stop := stop)
          (later := later) i hwi
        have e : progBits (i :: is) ps tail = encItem i ++ progBits is ps tail := by
          simp only [progBits, List.flatMap_cons, List.append_assoc]
        rw [e]
        simp only [PackReader.step, hp, hv1, hv2, if_false]
    | nil =>
      cases ps with
      | nil => simp [count] at hn
      | cons p ps =>
        obtain ⟨⟨hw1, hw2⟩, hne⟩ := hps p (List.mem_cons_self ..)
        cases hpi : p.items with
        | nil => exact absurd hpi hne
        | cons i is =>
          rw [hpi] at hw2
          have hwi := hw2 i (List.mem_cons_self ..)
          refine main i is ps (pos + (encPHdr p.hdr).length) hwi (fun j hj => hw2 j (List.mem_cons_of_mem _ hj))
            (fun q hq => hps q (List.mem_cons_of_mem _ hq)) ?_ ?_ ?_
          · simp only [count, List.length_nil, List.map_cons, List.sum_cons, hpi, List.length_cons] at hn ⊢; omega
          · simp only [payloads, List.flatMap_nil, List.nil_append, List.flatMap_cons, Pack.payload, hpi,
              List.append_assoc]
          · have e : progBits [] (p :: ps) tail = encPHdr p.hdr ++ (encItem i ++ progBits is ps tail) := by
              simp only [progBits, List.flatMap_nil, List.nil_append, List.flatMap_cons, encPack, hpi,
                List.append_assoc]
            obtain ⟨v, hv1, hv2, hv3, hv4, ⟨t, ht⟩, _⟩ := peek_item (r := progBits is ps tail) (pos := pos)
              (stop := stop) (later := later) i hwi
            have hfol : Follows p.hdr (encItem i ++ progBits is ps tail) := by
              unfold Follows
              split
              · exact ⟨v, t, hv4, hv3, ht⟩
              · obtain ⟨t, ht⟩ := encItem_code i hwi
                rw [ht]
                exact ⟨_, by
                  rw [show bitsOf 32 (0x100 + i.id) = bitsOf 1 0 ++ bitsOf 31 (0x100 + i.id) by
                    rw [bitsOf_append 1 31, show (0x100 + i.id) / 2 ^ 31 = 0 by
                      have := item_id hwi; omega], List.append_assoc]; rfl⟩
            have hp : BR.peek 32 ⟨encPHdr p.hdr ++ (encItem i ++ progBits is ps tail), pos, stop, later⟩ =
                (.ok packStartCode, ⟨encPHdr p.hdr ++ (encItem i ++ progBits is ps tail), pos, stop, later⟩) := by
              simp only [encPHdr, encPHdrFixed, List.append_assoc]
              exact BR.peek_bitsOf 32 packStartCode
            rw [e]
            simp only [PackReader.step, hp, newPackHeader_enc p.hdr hw1 hfol,
              show packStartCode ≠ programEndCode by decide, if_false, if_true]

theorem length_items : ∀ (is : List Item), (∀ i ∈ is, i.WF) → is.length ≤ (is.flatMap encItem).length
  | [], _ => by simp
  | i :: is, h => by
    have := length_items is (fun j hj => h j (List.mem_cons_of_mem _ hj))
    obtain ⟨p, n, _, _, h1, h2⟩ := newPacket_item (r := []) (pos := 0) (stop := .eof) (later := []) i
      (h i (List.mem_cons_self ..))
    simp only [List.flatMap_cons, List.length_cons, List.length_append]
    omega

theorem count_le : ∀ (ps : List Pack), GoodPacks ps →
    (ps.map (fun p => p.items.length)).sum ≤ (ps.flatMap encPack).length
  | [], _ => by simp
  | p :: ps, h => by
    have h1 := count_le ps (fun q hq => h q (List.mem_cons_of_mem _ hq))
    have h2 := length_items p.items (h p (List.mem_cons_self ..)).1.2
    simp only [List.flatMap_cons, List.map_cons, List.sum_cons, List.length_append, encPack]
    omega

/-- The reader stands in a well-formed program of which the bytes `c` have not been delivered. -/
def At (tail : List Bool) (stop : Err) (later : List (List Bool × Err)) (r : PackReader) (c : List UInt8) : Prop :=
  ∃ is ps pos, (∀ i ∈ is, i.WF) ∧ GoodPacks ps ∧ r.br = ⟨progBits is ps tail, pos, stop, later⟩ ∧
    c = r.remainder ++ payloads is ps

theorem read_enough {tail : List Bool} {stop : Err} {later : List (List Bool × Err)} {r : PackReader}
    {c : List UInt8} (h : At tail stop later r c) {n : Nat} (hn : n ≤ c.length) :
    ∃ r', PackReader.read n r = (.ok ⟨c.take n, n, none⟩, r') ∧ At tail stop later r' (c.drop n) := by
  obtain ⟨is, ps, pos, h1, h2, h3, rfl⟩ := h
  unfold PackReader.read
  by_cases hr : n ≤ r.remainder.length
  · rw [if_pos hr]
    refine ⟨{ r with remainder := r.remainder.drop n }, by rw [List.take_append_of_le_length hr],
      is, ps, pos, h1, h2, h3, ?_⟩
    rw [List.drop_append_of_le_length hr]
  · rw [if_neg hr]
    rw [List.length_append] at hn
    have hb : r = ⟨⟨progBits is ps tail, pos, stop, later⟩, r.remainder⟩ := by
      cases r; simp only at h3; subst h3; rfl
    have hcount : count is ps < bitsLeft r.br + 1 := by
      rw [h3]
      have e1 := length_items is h1
      have e2 := count_le ps h2
      simp only [count, bitsLeft, progBits, List.length_append]
      omega
    obtain ⟨is', ps', pos', rem', a1, a2, a3, a4⟩ := (step_prog tail stop later (count is ps) is ps
      (bitsLeft r.br + 1) (n - r.remainder.length) pos r.remainder rfl hcount (by omega) h1 h2).1 (by omega)
    have htake : (r.remainder ++ payloads is ps).take n =
        r.remainder ++ (payloads is ps).take (n - r.remainder.length) := by
      rw [List.take_append, List.take_of_length_le (by omega)]
    have hdrop : (r.remainder ++ payloads is ps).drop n = (payloads is ps).drop (n - r.remainder.length) := by
      rw [List.drop_append, List.drop_of_length_le (by omega), List.nil_append]
    refine ⟨⟨⟨progBits is' ps' tail, pos', stop, later⟩, rem'⟩, ?_, is', ps', pos', a1, a2, rfl, ?_⟩
    rotate_left
    · show _ = rem' ++ _
      rw [hdrop, a3]
    · rw [h3] at a4 ⊢
      rw [a4, htake]
      have : (r.remainder ++ (payloads is ps).take (n - r.remainder.length)).length = n := by
        rw [List.length_append, List.length_take]; omega
      rw [this]

theorem read_end {tail : List Bool} {stop : Err} {later : List (List Bool × Err)} {r : PackReader}
    {c : List UInt8} (h : At tail stop later r c) {n : Nat} (hn : c.length < n) :
    ∃ pos', PackReader.read n r = (.ok ⟨c, c.length, some .eof⟩, ⟨⟨tail, pos', stop, later⟩, []⟩) := by
  obtain ⟨is, ps, pos, h1, h2, h3, rfl⟩ := h
  rw [List.length_append] at hn
  unfold PackReader.read
  rw [if_neg (by omega)]
  have hcount : count is ps < bitsLeft r.br + 1 := by
    rw [h3]
    have e1 := length_items is h1
    have e2 := count_le ps h2
    simp only [count, bitsLeft, progBits, List.length_append]
    omega
  obtain ⟨pos', a4⟩ := (step_prog tail stop later (count is ps) is ps
    (bitsLeft r.br + 1) (n - r.remainder.length) pos r.remainder rfl hcount (by omega) h1 h2).2 (by omega)
  refine ⟨pos', ?_⟩
  rw [h3] at a4 ⊢
  rw [a4]

end Mpeg.PS
