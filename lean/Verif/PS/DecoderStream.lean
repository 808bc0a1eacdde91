/-
The decoder on well-formed program streams.
-/
import Verif.PS.DecoderLemmas
set_option linter.all false
namespace Mpeg.PS
open Spec

/-- What the consumer sees of a pack is what was encoded (the SCR base modulo 2^32, see C28). -/
def Spec.Shows (x : PackHeader × List PES.Packet) (p : Pack) : Prop :=
  x.1.scrBase = p.hdr.scrBase % 2 ^ 32 ∧ x.1.scrExtension = p.hdr.scrExt ∧ x.1.muxRate = p.hdr.muxRate ∧
  x.1.system.isSome = p.hdr.system.isSome ∧
  x.2.map PES.Packet.payload = p.items.map Item.payload ∧ x.2.map PES.Packet.streamID = p.items.map Item.id

/-- the same for a sequence of packs -/
inductive Spec.ShowsAll : List (PackHeader × List PES.Packet) → List Pack → Prop
  | nil : Spec.ShowsAll [] []
  | snoc {l : List (PackHeader × List PES.Packet)} {ps : List Pack} {x : PackHeader × List PES.Packet} {p : Pack} :
      Spec.ShowsAll l ps → Spec.Shows x p → Spec.ShowsAll (l ++ [x]) (ps ++ [p])

theorem showsAll_nil {ps : List Pack} (h : ShowsAll [] ps) : ps = [] := by
  generalize hl : ([] : List (PackHeader × List PES.Packet)) = l at h
  cases h with
  | nil => rfl
  | snoc _ _ => simp at hl

section
variable {tail : List Bool} {pos : Nat} {stop : Err} {later : List (List Bool × Err)}

theorem peek24_code (v : Nat) (hv : v < 2 ^ 32) {r : List Bool} :
    BR.peek 24 ⟨bitsOf 32 v ++ r, pos, stop, later⟩ = (.ok (v / 256), ⟨bitsOf 32 v ++ r, pos, stop, later⟩) := by
  rw [bitsOf_append 24 8, List.append_assoc, BR.peek_bitsOf, Nat.mod_eq_of_lt (by omega)]

theorem progBits_cons_item (i : Item) (is : List Item) (ps : List Pack) :
    progBits (i :: is) ps tail = encItem i ++ progBits is ps tail := by
  simp only [progBits, List.flatMap_cons, List.append_assoc]
theorem progBits_cons_pack (p : Pack) (ps : List Pack) :
    progBits [] (p :: ps) tail = encPHdr p.hdr ++ progBits p.items ps tail := by
  simp only [progBits, List.flatMap_nil, List.nil_append, List.flatMap_cons, encPack, List.append_assoc]
theorem progBits_nil : progBits [] [] tail = bitsOf 32 programEndCode ++ tail := by
  simp [progBits]

/-- the code at the start of the rest of a program -/
def headCode (is : List Item) (ps : List Pack) : Nat :=
  match is, ps with
  | i :: _, _ => 0x100 + i.id
  | [], _ :: _ => packStartCode
  | [], [] => programEndCode

theorem prog_head (is : List Item) (ps : List Pack) (hi : ∀ i ∈ is, i.WF) :
    ∃ t, progBits is ps tail = bitsOf 32 (headCode is ps) ++ t := by
  cases is with
  | cons i is =>
    obtain ⟨t, ht⟩ := encItem_code i (hi i (List.mem_cons_self ..))
    exact ⟨_, by rw [progBits_cons_item, ht]; rfl⟩
  | nil =>
    cases ps with
    | nil => exact ⟨tail, progBits_nil⟩
    | cons p ps =>
      rw [progBits_cons_pack]
      simp only [encPHdr, encPHdrFixed, List.append_assoc]
      exact ⟨_, rfl⟩

theorem headCode_lt (is : List Item) (ps : List Pack) (hi : ∀ i ∈ is, i.WF) :
    headCode is ps / 256 = 1 ∧ headCode is ps < 2 ^ 32 ∧ headCode is ps ≠ systemHeaderStartCode := by
  cases is with
  | cons i is =>
    have := item_id (hi i (List.mem_cons_self ..))
    simp only [headCode, systemHeaderStartCode]; omega
  | nil => cases ps <;> simp only [headCode] <;> exact ⟨by decide, by decide, by decide⟩

theorem headCode_item (i : Item) (is : List Item) (ps : List Pack) (h : i.WF) :
    ¬ (headCode (i :: is) ps = packStartCode ∨ headCode (i :: is) ps = programEndCode) := by
  have := item_id h
  simp only [headCode, packStartCode, programEndCode]; omega

theorem prog_peek32 (is : List Item) (ps : List Pack) (hi : ∀ i ∈ is, i.WF) :
    BR.peek 32 ⟨progBits is ps tail, pos, stop, later⟩ =
      (.ok (headCode is ps), ⟨progBits is ps tail, pos, stop, later⟩) := by
  obtain ⟨t, ht⟩ := prog_head (tail := tail) is ps hi
  rw [ht, BR.peek_bitsOf, Nat.mod_eq_of_lt (headCode_lt is ps hi).2.1]
theorem prog_peek24 (is : List Item) (ps : List Pack) (hi : ∀ i ∈ is, i.WF) :
    BR.peek 24 ⟨progBits is ps tail, pos, stop, later⟩ = (.ok 1, ⟨progBits is ps tail, pos, stop, later⟩) := by
  obtain ⟨t, ht⟩ := prog_head (tail := tail) is ps hi
  rw [ht, peek24_code _ (headCode_lt is ps hi).2.1, (headCode_lt is ps hi).1]

theorem newPacket_item_id (i : Item) (h : i.WF) {r : List Bool} : ∃ p n, p.payload = i.payload ∧ p.streamID = i.id ∧
    newPacket ⟨encItem i ++ r, pos, stop, later⟩ = (.ok p, ⟨r, pos + n, stop, later⟩) := by
  cases i with
  | media id hd d =>
    obtain ⟨h0, h1, h2, h3, h4, h5⟩ := h
    have hh : PES.hasPESHeader id = true := by
      simp [PES.Spec.noHeaderIds] at h2; simp [PES.hasPESHeader, h2]
    refine ⟨⟨id, 3 + hd.dataLen + d.length, some (PES.viewHdr hd), d⟩, 8 * (9 + hd.dataLen + d.length), rfl, rfl, ?_⟩
    unfold newPacket
    simp only [encItem]
    rw [PES.next_packet {} id hd d h1 hh h3 h4 h5]
  | padding d =>
    refine ⟨{ streamID := 0xbe, packetLength := d.length }, 8 * (6 + d.length), rfl, rfl, ?_⟩
    unfold newPacket
    simp only [encItem]
    rw [PES.next_padding {} d h]

theorem prog_header (p : Pack) (ps : List Pack) (hw : p.WF) :
    newPackHeader ⟨progBits [] (p :: ps) tail, pos, stop, later⟩ =
      (.ok (viewPHdr p.hdr), ⟨progBits p.items ps tail, pos + (encPHdr p.hdr).length, stop, later⟩) := by
  rw [progBits_cons_pack]
  refine newPackHeader_enc p.hdr hw.1 ?_
  obtain ⟨t, ht⟩ := prog_head (tail := tail) p.items ps hw.2
  obtain ⟨h1, h2, h3⟩ := headCode_lt p.items ps hw.2
  rw [ht]
  unfold Follows
  split
  · exact ⟨_, t, h2, h3, rfl⟩
  · exact ⟨_, by
      rw [show bitsOf 32 (headCode p.items ps) = bitsOf 1 0 ++ bitsOf 31 (headCode p.items ps) by
        rw [bitsOf_append 1 31, show headCode p.items ps / 2 ^ 31 = 0 by omega], List.append_assoc]; rfl⟩

theorem loop_wf {ps : List Pack} {is : List Item} (hi : ∀ i ∈ is, i.WF) {b b3 : BR} {qs : List PES.Packet}
    (h : Loop b qs b3) (hb : b = ⟨progBits is ps tail, pos, stop, later⟩) :
    ∃ is1 is2 pos', is = is1 ++ is2 ∧ qs.map PES.Packet.payload = is1.map Item.payload ∧
      qs.map PES.Packet.streamID = is1.map Item.id ∧ b3 = ⟨progBits is2 ps tail, pos', stop, later⟩ := by
  induction h with
  | nil => exact ⟨[], is, pos, rfl, rfl, rfl, hb⟩
  | @snoc b1 b2 qs v q hl h24 h32 hv hn ih =>
    obtain ⟨is1, is2, pos', e1, e2, e3, e4⟩ := ih
    have hi2 : ∀ i ∈ is2, i.WF := fun i hm => hi i (by rw [e1]; exact List.mem_append_right _ hm)
    subst e4
    rw [prog_peek32 is2 ps hi2] at h32
    have hv' : headCode is2 ps = v := by cases h32; rfl
    cases is2 with
    | nil =>
      exfalso
      apply hv
      rw [← hv']
      cases ps <;> simp [headCode]
    | cons i is2 =>
      obtain ⟨p, n, g1, g2, g3⟩ := newPacket_item_id (r := progBits is2 ps tail) (pos := pos') (stop := stop)
        (later := later) i (hi2 i (List.mem_cons_self ..))
      rw [progBits_cons_item, g3] at hn
      have hq : p = q := by cases hn; rfl
      have hb2 : b2 = ⟨progBits is2 ps tail, pos' + n, stop, later⟩ := by cases hn; rfl
      subst hq
      exact ⟨is1 ++ [i], is2, pos' + n, by rw [e1]; simp, by simp [e2, g1], by simp [e3, g2], hb2⟩

theorem loopEnd_wf {ps : List Pack} {is : List Item} (hi : ∀ i ∈ is, i.WF) {b b4 : BR}
    (h : LoopEnd b b4) (hb : b = ⟨progBits is ps tail, pos, stop, later⟩) : is = [] ∧ b4 = b := by
  have h24 := prog_peek24 (tail := tail) (pos := pos) (stop := stop) (later := later) is ps hi
  have h32 := prog_peek32 (tail := tail) (pos := pos) (stop := stop) (later := later) is ps hi
  rw [← hb] at h24 h32
  cases h with
  | e24 h => rw [h24] at h; cases h
  | noPrefix h hv => rw [h24] at h; cases h; exact absurd rfl hv
  | e32 _ h => rw [h32] at h; cases h
  | code _ h hv =>
    rw [h32] at h
    cases h
    refine ⟨?_, rfl⟩
    cases is with
    | nil => rfl
    | cons i is => exact absurd hv (headCode_item i is ps (hi i (List.mem_cons_self ..)))
  | packet _ h hv hn =>
    rw [h32] at h
    cases h
    cases is with
    | nil => exfalso; apply hv; cases ps <;> simp [headCode]
    | cons i is =>
      obtain ⟨p, n, g1, g2, g3⟩ := newPacket_item_id (r := progBits is ps tail) (pos := pos) (stop := stop)
        (later := later) i (hi i (List.mem_cons_self ..))
      rw [hb, progBits_cons_item, g3] at hn
      cases hn

theorem hist_wf {ps : List Pack} (hw : ∀ p ∈ ps, p.WF) {b0 b : BR} {l : List (PackHeader × List PES.Packet)}
    (hb0 : b0 = ⟨progBits [] ps tail, pos, stop, later⟩) (h : Hist b0 l b) (hne : l = [] ∨ ps ≠ []) :
    ∃ ps1 ps2 pos', ps = ps1 ++ ps2 ∧ ShowsAll l ps1 ∧ b = ⟨progBits [] ps2 tail, pos', stop, later⟩ := by
  induction h with
  | nil => exact ⟨[], ps, pos, rfl, .nil, hb0⟩
  | @snoc l b1 b2 b3 b4 h qs hh hc hp hl he ih =>
    have hps : ps ≠ [] := by
      rcases hne with h | h
      · simp at h
      · exact h
    obtain ⟨ps1, ps2, pos1, e1, e2, e3⟩ := ih (.inr hps)
    subst e3
    cases ps2 with
    | nil =>
      exfalso
      have hl' : l ≠ [] := by
        rintro rfl
        exact hps (by rw [e1, showsAll_nil e2]; rfl)
      have := hc hl'
      rw [prog_peek32 [] [] (by simp)] at this
      cases this
    | cons p ps2 =>
      have hwp := hw p (by rw [e1]; simp)
      rw [prog_header p ps2 hwp] at hp
      have hh : viewPHdr p.hdr = h := by cases hp; rfl
      have hb2 : b2 = ⟨progBits p.items ps2 tail, pos1 + (encPHdr p.hdr).length, stop, later⟩ := by cases hp; rfl
      obtain ⟨is1, is2, pos', f1, f2, f3, f4⟩ := loop_wf hwp.2 hl hb2
      have hi2 : ∀ i ∈ is2, i.WF := fun i hm => hwp.2 i (by rw [f1]; exact List.mem_append_right _ hm)
      obtain ⟨g1, g2⟩ := loopEnd_wf hi2 he f4
      subst g1
      rw [List.append_nil] at f1
      refine ⟨ps1 ++ [p], ps2, pos', by rw [e1]; simp, ?_, by rw [g2, f4]⟩
      refine .snoc e2 ?_
      subst hh
      rw [← f1] at f2 f3
      exact ⟨rfl, rfl, rfl, by simp [viewPHdr], f2, f3⟩

theorem fin_wf {ps : List Pack} (hw : ∀ p ∈ ps, p.WF) (hps : ps ≠ []) {b0 b : BR}
    {l : List (PackHeader × List PES.Packet)} {e : Option Err}
    (hb0 : b0 = ⟨progBits [] ps tail, pos, stop, later⟩) (h : Hist b0 l b) (hf : Fin l b e) :
    e = none ∧ ShowsAll l ps := by
  obtain ⟨ps1, ps2, pos', e1, e2, e3⟩ := hist_wf hw hb0 h (.inr hps)
  subst e3
  have h32 := prog_peek32 (tail := tail) (pos := pos') (stop := stop) (later := later) [] ps2 (by simp)
  have hdr : ∀ p ps2', ps2 = p :: ps2' → ∀ e b', newPackHeader ⟨progBits [] ps2 tail, pos', stop, later⟩ =
      (.err e, b') → False := by
    rintro p ps2' rfl e b' h
    rw [prog_header p ps2' (hw p (by rw [e1]; simp))] at h
    cases h
  cases hf with
  | header hc h =>
    exfalso
    cases ps2 with
    | cons p ps2' => exact hdr p ps2' rfl _ _ h
    | nil =>
      have hl : l ≠ [] := by
        rintro rfl
        exact hps (by rw [e1, showsAll_nil e2]; rfl)
      have := hc hl
      rw [h32] at this
      cases this
  | peek hl h => rw [h32] at h; cases h
  | other hl h hp hv =>
    rw [h32] at h
    cases h
    exfalso
    cases ps2 with
    | nil => exact hv rfl
    | cons p ps2' => exact hp rfl
  | ok hl h =>
    cases ps2 with
    | nil => rw [List.append_nil] at e1; subst e1; exact ⟨rfl, e2⟩
    | cons p ps2' => rw [h32] at h; cases h

theorem crash_wf {ps : List Pack} (hw : ∀ p ∈ ps, p.WF) (hps : ps ≠ []) {b0 : BR} {s : DSt}
    (hb0 : b0 = ⟨progBits [] ps tail, pos, stop, later⟩) (h : Crash b0 s) : False := by
  obtain ⟨h, l, evs, b1, b2, b3, b4, qs, o, a1, a2, a3, a4, ⟨v, a5, hv⟩, a6, _⟩ := h
  obtain ⟨ps1, ps2, pos', e1, e2, e3⟩ := hist_wf hw hb0 a1 (.inr hps)
  subst e3
  cases ps2 with
  | nil =>
    unfold newPackHeader readPackFixed at a2
    rw [progBits_nil] at a2
    obtain ⟨x, s1, h1, _⟩ := Go.bind_eq_ok a2
    obtain ⟨_, s2, h2, _⟩ := Go.bind_eq_ok h1
    unfold codeAssert at h2
    rw [Go.bind_ok (codeCheck_bits 32 packStartCode (show programEndCode < 2 ^ 32 by decide))] at h2
    cases h2
  | cons p ps2 =>
    have hwp := hw p (by rw [e1]; simp)
    rw [prog_header p ps2 hwp] at a2
    have hb2 : b2 = ⟨progBits p.items ps2 tail, pos' + (encPHdr p.hdr).length, stop, later⟩ := by cases a2; rfl
    obtain ⟨is1, is2, pos'', f1, f2, f3, f4⟩ := loop_wf hwp.2 a3 hb2
    have hi2 : ∀ i ∈ is2, i.WF := fun i hm => hwp.2 i (by rw [f1]; exact List.mem_append_right _ hm)
    subst f4
    rw [prog_peek32 is2 ps2 hi2] at a5
    cases a5
    cases is2 with
    | nil => apply hv; cases ps2 <;> simp [headCode]
    | cons i is =>
      obtain ⟨p, n, g1, g2, g3⟩ := newPacket_item_id (r := progBits is ps2 tail) (pos := pos'') (stop := stop)
        (later := later) i (hi2 i (List.mem_cons_self ..))
      rw [progBits_cons_item, g3] at a6
      cases a6
end

end Mpeg.PS
