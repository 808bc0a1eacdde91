/-
C135: every sequence of pictures can be transmitted in transport streams and in program streams.
-/
import Verif.Pipe.ProgramProps
import Verif.Video.UniversalProps
set_option linter.all false
namespace Mpeg.Pipe
open PES.Spec TS.Spec Video.Spec

/-- **C135** through the layers: for every PID and every list of images as in `Video.C135` there is a transport stream
carrying PES packets on this PID such that the video decoder on top of the PES reader on top of the payload unit reader
returns these pictures within 4 levels, and then the end of the stream. -/
theorem C135_ts {w h k : Nat} (hk : k < 2 ^ 13) (hw0 : 0 < w) (hw : w < 16384) (hh0 : 0 < h) (hh : h ≤ 2800)
    (Ps : List Image) (hne : Ps ≠ []) (hP : ∀ P ∈ Ps, EightBit P) :
    ∃ pre gs us N, Carries k pre gs us ∧ ∀ fuel fuel' fuelV kV, N ≤ fuel → N ≤ fuel' → N ≤ fuelV → 2 ≤ kV →
      (∃ br, IsSource (puReads fuel k (tsBits pre gs)) br ∧ ∃ br', IsSource (pesReads fuel' br) br') ∧
      ∀ br br', IsSource (puReads fuel k (tsBits pre gs)) br → IsSource (pesReads fuel' br) br' →
        ∃ frames t, Video.nexts fuelV kV Ps.length (Video.VS.new br') = (.ok frames, t) ∧ frames.length = Ps.length ∧
          (∀ i (h1 : i < frames.length) (h2 : i < Ps.length), NearImage 4 (mbCount w) (mbCount h) frames[i] Ps[i]) ∧
          (Video.VS.next fuelV kV t).1 = .err .eos := by
  obtain ⟨vs, bits, imgs, hg, hl, hli, hn⟩ := Video.Universal.groups_ex hw0 hw hh0 hh Ps hP 0 none none (8 * 0)
  have hvs : vs ≠ [] := by
    intro h
    rw [h] at hl
    exact hne (List.length_eq_zero_iff.mp hl.symm)
  let pad := 8 - (bits.length % 8)
  obtain ⟨c, hc⟩ := bytes_of (l := List.replicate (8 * 0) false ++ (bits ++ (bitsOf 32 0x1B7 ++ List.replicate pad false))) (by
    simp only [List.length_append, List.length_replicate, length_bitsOf, pad]; omega)
  obtain ⟨pre, gs, hcar⟩ := exists_carries k hk [openUnit c] (by
    intro u hu
    simp only [List.mem_cons, List.not_mem_nil, or_false] at hu
    subst hu
    exact openUnit_wf _)
  refine ⟨pre, gs, _, (pre ++ (gs.map fun g => g.1 :: g.2).flatten).length + 1 + (count [openUnit c] + 1) + (bits.length + 1), hcar,
    fun fuel fuel' fuelV kV h1 h2 h3 h4 => ?_⟩
  obtain ⟨a1, a2⟩ := C76_partial (fuel := fuel) (fuel' := fuel') (fuelV := fuelV) (kV := kV) hcar
    (by
      intro u hu
      simp only [List.mem_cons, List.not_mem_nil, or_false] at hu
      subst hu
      rfl) (by omega) (by omega) (rest := List.replicate pad false) (lead := 0)
    (by simp only [PesUnit.payload, openUnit, pkt, List.flatMap_cons, List.flatMap_nil, List.append_nil, List.nil_append]
        simpa using hc) hg hvs h4 (by omega)
  refine ⟨a1, fun br br' b1 b2 => ?_⟩
  obtain ⟨frames, t, g1, g2, g3, g4⟩ := a2 br br' b1 b2
  rw [hli] at g1 g2
  refine ⟨frames, t, g1, g2, fun i i1 i2 => ?_, g4⟩
  have sh := g3 i i1 (by omega)
  have nr := hn i (by omega) i2
  refine ⟨sh.1, fun c x y hc hx hy => ?_⟩
  rw [sh.2 c x y hc hx hy]
  exact nr c x y hc hx hy

/-- The same for program streams, in packs with payloads of any size. -/
theorem C135_ps {w h n : Nat} (hn : n + 1 < 65533) (hw0 : 0 < w) (hw : w < 16384) (hh0 : 0 < h) (hh : h ≤ 2800)
    (Ps : List Image) (hne : Ps ≠ []) (hP : ∀ P ∈ Ps, EightBit P) :
    ∃ (ps : List PS.Spec.Pack) (N : Nat), (∀ p ∈ ps, p.WF ∧ p.payload.length ≤ n + 1) ∧ ∀ tail fuelV kV, N ≤ fuelV → 2 ≤ kV →
      (∃ br, IsSource (packReads (PS.Spec.encProgram ps ++ tail)) br) ∧
      ∀ br, IsSource (packReads (PS.Spec.encProgram ps ++ tail)) br →
        ∃ frames t, Video.nexts fuelV kV Ps.length (Video.VS.new br) = (.ok frames, t) ∧ frames.length = Ps.length ∧
          (∀ i (h1 : i < frames.length) (h2 : i < Ps.length), NearImage 4 (mbCount w) (mbCount h) frames[i] Ps[i]) ∧
          (Video.VS.next fuelV kV t).1 = .err .eos := by
  obtain ⟨vs, bits, imgs, hg, hl, hli, hn'⟩ := Video.Universal.groups_ex hw0 hw hh0 hh Ps hP 0 none none (8 * 0)
  have hvs : vs ≠ [] := by
    intro h
    rw [h] at hl
    exact hne (List.length_eq_zero_iff.mp hl.symm)
  let pad := 8 - (bits.length % 8)
  obtain ⟨c, hc⟩ := bytes_of (l := List.replicate (8 * 0) false ++ (bits ++ (bitsOf 32 0x1B7 ++ List.replicate pad false))) (by
    simp only [List.length_append, List.length_replicate, length_bitsOf, pad]; omega)
  obtain ⟨i1, i2⟩ := packsOf_spec n hn c.length c (Nat.le_refl _)
  have size : ∀ (f : Nat) (d : List UInt8), d.length ≤ f → ∀ p ∈ packsOf n f d, p.payload.length ≤ n + 1 := by
    intro f
    induction f with
    | zero =>
      intro d hd p hp
      simp only [packsOf, List.mem_cons, List.not_mem_nil, or_false] at hp
      subst hp
      simp [vpack, PS.Spec.Pack.payload, PS.Spec.Item.payload]
      omega
    | succ f ih =>
      intro d hd p hp
      unfold packsOf at hp
      split at hp
      · simp only [List.mem_cons, List.not_mem_nil, or_false] at hp
        subst hp
        simp [vpack, PS.Spec.Pack.payload, PS.Spec.Item.payload]
        omega
      · simp only [List.mem_cons] at hp
        rcases hp with rfl | hp
        · simp [vpack, PS.Spec.Pack.payload, PS.Spec.Item.payload]
        · exact ih _ (by rw [List.length_drop]; omega) p hp
  refine ⟨packsOf n c.length c, bits.length + 1, fun p hp => ⟨(i1 p hp).1, size _ _ (Nat.le_refl _) p hp⟩,
    fun tail fuelV kV h1 h2 => ?_⟩
  obtain ⟨a1, a2⟩ := C86_partial (tail := tail) (fuelV := fuelV) (kV := kV) (fun p hp => (i1 p hp).1) (fun p hp => (i1 p hp).2)
    (rest := List.replicate pad false) (lead := 0) (by rw [i2, hc]) hg hvs h2 (by omega)
  refine ⟨a1, fun br b1 => ?_⟩
  obtain ⟨frames, t, g1, g2, g3, g4⟩ := a2 br b1
  rw [hli] at g1 g2
  refine ⟨frames, t, g1, g2, fun i i1 i2 => ?_, g4⟩
  have sh := g3 i i1 (by omega)
  have nr := hn' i (by omega) i2
  refine ⟨sh.1, fun c x y hc hx hy => ?_⟩
  rw [sh.2 c x y hc hx hy]
  exact nr c x y hc hx hy

/-- a case: a chequered picture of 720 x 576 samples after a black one -/
example : ∃ pre gs us N, Carries 0x100 pre gs us ∧ ∀ fuel fuel' fuelV kV, N ≤ fuel → N ≤ fuel' → N ≤ fuelV → 2 ≤ kV →
    (∃ br, IsSource (puReads fuel 0x100 (tsBits pre gs)) br ∧ ∃ br', IsSource (pesReads fuel' br) br') ∧
    ∀ br br', IsSource (puReads fuel 0x100 (tsBits pre gs)) br → IsSource (pesReads fuel' br) br' →
      ∃ frames t, Video.nexts fuelV kV 2 (Video.VS.new br') = (.ok frames, t) ∧ frames.length = 2 ∧
        (∀ i (h1 : i < frames.length) (h2 : i < 2), NearImage 4 45 36 frames[i]
          [fun _ _ _ => 0, fun c x y => if c = 0 then 255 * ((x / 16 + y / 16) % 2) else 128][i]) ∧
        (Video.VS.next fuelV kV t).1 = .err .eos :=
  C135_ts (w := 720) (h := 576) (k := 0x100) (by decide) (by decide) (by decide) (by decide) (by decide)
    [fun _ _ _ => 0, fun c x y => if c = 0 then 255 * ((x / 16 + y / 16) % 2) else 128] (List.cons_ne_nil _ _) (by
      intro P hP
      simp only [List.mem_cons, List.not_mem_nil, or_false] at hP
      rcases hP with rfl | rfl
      · intro c x y; exact Nat.zero_le _
      · intro c x y
        show (if c = 0 then 255 * ((x / 16 + y / 16) % 2) else 128) ≤ 255
        split <;> omega)

end Mpeg.Pipe
