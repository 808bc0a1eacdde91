/-
C144: the container makes no difference to the decoder, whatever the elementary stream.
-/
import Verif.Pipe.ProgramProps
import Verif.Pipe.StraightProps
set_option linter.all false
namespace Mpeg.Pipe
open PES.Spec TS.Spec

/-- `br` is a bit reader over something that carries the bytes `es`: the bytes themselves; a transport stream with PES packets of unknown
length at the ends of the payload units, through payload unit reader and PES reader; a transport stream with PES packets of known length
(and possibly a last one of unknown length) through payload reader and PES reader; a program stream through the pack reader. -/
inductive Over (es : List UInt8) : BR → Prop
  | file : Over es (BR.ofBytes es)
  | units {k fuel fuel' : Nat} {pre : List Pkt} {gs : List (Pkt × List Pkt)} {us : List PesUnit} {b br : BR} :
      Carries k pre gs us → (∀ u ∈ us, u.last.isSome) → us.flatMap (·.payload) = es →
      (pre ++ (gs.map fun g => g.1 :: g.2).flatten).length < fuel → count us < fuel' →
      IsSource (puReads fuel k (tsBits pre gs)) b → IsSource (pesReads fuel' b) br → Over es br
  | straight {k fuel fuel' : Nat} {ps : List Pkt} {c : List UInt8} {u : PesUnit} {b br : BR} :
      Bears k ps c → u.WF → bitsOfBytes c = u.enc → u.payload = es → ps.length < fuel →
      u.closed.length + u.last.toList.length < fuel' →
      IsSource (prReads fuel k (ps.map encPkt).flatten) b → IsSource (pesReads fuel' b) br → Over es br
  | program {ps : List PS.Spec.Pack} {tail : List Bool} {br : BR} :
      (∀ p ∈ ps, p.WF) → (∀ p ∈ ps, p.items ≠ []) → ps.flatMap PS.Spec.Pack.payload = es →
      IsSource (packReads (PS.Spec.encProgram ps ++ tail)) br → Over es br

/-- **C144**.  All bit readers over something that carries the bytes `es`, whatever these bytes are, are alike, so everything that is
read from them, by whatever calls, is the same. -/
theorem C144_reader {es : List UInt8} {b b' : BR} (h : Over es b) (h' : Over es b') : b = b' := by
  have key : ∀ {br : BR}, Over es br → br = BR.ofBytes es := by
    intro br h
    cases h with
    | file => rfl
    | units hc ho he hf hf' h1 h2 =>
      subst he
      refine h2.unique ⟨_, .eof, [], rfl, fun ns _ => ?_⟩
      rw [((C61_partial hc hf hf').2 _ h1).1, pieces_open _ ho]
      rfl
    | straight hb hu hc he hf hf' h1 h2 =>
      subst he
      refine h2.unique ⟨_, .eof, [], rfl, fun ns _ => ?_⟩
      rw [(C113_partial hb hu hc hf hf').2 _ h1 ns, ← deliver_segs]
    | program hw hne he h1 =>
      subst he
      exact h1.unique (pack_source _ hw hne _)
  rw [key h, key h']

/-- **C144**, pictures: any number of calls of `Next` gives the same pictures, or the same error at the same call, whichever way the
elementary stream `es` comes, be it legal, damaged or no video at all. -/
theorem C144_pictures {es : List UInt8} {b b' : BR} (h : Over es b) (h' : Over es b') (fuel k n : Nat) :
    Video.nexts fuel k n (Video.VS.new b) = Video.nexts fuel k n (Video.VS.new b') := by
  rw [C144_reader h h']

/-- **C144**, existence: every sequence of bytes can be carried in a transport stream on every PID, and (up to the size of a PES packet,
for brevity) in a transport stream with PES packets of known length and in a program stream. -/
theorem C144_carriers (es : List UInt8) (k : Nat) (hk : k < 2 ^ 13) :
    (∃ pre gs us fuel fuel' b br, Carries k pre gs us ∧ IsSource (puReads fuel k (tsBits pre gs)) b ∧ IsSource (pesReads fuel' b) br ∧
      Over es br) ∧
    (es.length < 65533 →
      (∃ (ps : List Pkt) (fuel fuel' : Nat) (b br : BR), IsSource (prReads fuel k (ps.map encPkt).flatten) b ∧ IsSource (pesReads fuel' b) br ∧ Over es br) ∧
      ∃ (ps : List PS.Spec.Pack) (br : BR), IsSource (packReads (PS.Spec.encProgram ps)) br ∧ Over es br) := by
  refine ⟨?_, fun hl => ⟨?_, ?_⟩⟩
  · obtain ⟨pre, gs, hcar⟩ := exists_carries k hk [openUnit es] (by
      intro u hu
      simp only [List.mem_cons, List.not_mem_nil, or_false] at hu
      subst hu
      exact openUnit_wf _)
    have ho : ∀ u ∈ [openUnit es], u.last.isSome := by
      intro u hu
      simp only [List.mem_cons, List.not_mem_nil, or_false] at hu
      subst hu
      rfl
    have he : [openUnit es].flatMap (·.payload) = es := by
      simp [PesUnit.payload, openUnit, pkt]
    obtain ⟨b, hs⟩ : ∃ b, IsSource (puReads _ k (tsBits pre gs)) b := ⟨_, pu_source hcar (Nat.lt_succ_self _)⟩
    have hp : IsSource (pesReads (count [openUnit es] + 1) b) (BR.ofBytes es) := by
      refine ⟨es, .eof, [], rfl, fun ns _ => ?_⟩
      rw [((C61_partial hcar (Nat.lt_succ_self _) (Nat.lt_succ_self _)).2 _ hs).1, pieces_open _ ho, he]
      rfl
    exact ⟨pre, gs, _, _, _, _, _, hcar, hs, hp, .units hcar ho he (Nat.lt_succ_self _) (Nat.lt_succ_self _) hs hp⟩
  · obtain ⟨ps, c, hb, hc⟩ := exists_bears_unit k hk (closedUnit es) (closedUnit_wf es hl)
    have hs := pr_source hb (Nat.lt_succ_self _)
    have he : (closedUnit es).payload = es := by simp [PesUnit.payload, closedUnit, pkt]
    have hp : IsSource (pesReads 2 ⟨bitsOfBytes c, 0, .eof, []⟩) (BR.ofBytes es) := by
      refine ⟨es, .eof, [], rfl, fun ns _ => ?_⟩
      rw [(C113_partial hb (closedUnit_wf es hl) hc (Nat.lt_succ_self _) (by decide : 1 + 0 < 2)).2 _ hs ns, ← deliver_segs, he]
    exact ⟨ps, _, _, _, _, hs, hp, .straight hb (closedUnit_wf es hl) hc he (Nat.lt_succ_self _) (by decide : 1 + 0 < 2) hs hp⟩
  · have hw : ∀ p ∈ [vpack es], p.WF := by
      intro p hp
      simp only [List.mem_cons, List.not_mem_nil, or_false] at hp
      subst hp
      exact vpack_wf es hl
    have hne : ∀ p ∈ [vpack es], p.items ≠ [] := by
      intro p hp
      simp only [List.mem_cons, List.not_mem_nil, or_false] at hp
      subst hp
      simp [vpack]
    have he : [vpack es].flatMap PS.Spec.Pack.payload = es := by simp [vpack, PS.Spec.Pack.payload, PS.Spec.Item.payload]
    have hs := pack_source [vpack es] hw hne []
    rw [List.append_nil] at hs
    exact ⟨_, _, hs, .program (tail := []) hw hne he (by rw [List.append_nil]; exact hs)⟩

end Mpeg.Pipe
