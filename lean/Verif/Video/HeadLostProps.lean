/-
C150: what `Next` returns of a stream in which headers of groups of pictures are missing.
-/
import Verif.Video.LostProps
import Verif.Video.HeadLostSpec
set_option linter.all false
namespace Mpeg.Video
open Spec

namespace HeadLost

/-- A B picture before the counter. -/
theorem inside_b {fs : FrameStore} {c : Nat} {pend : Option Pict} {p : Pict} (h : Inside fs c pend) (hp : p.newGop = false)
    (hk : ¬IsRef p.kind) : Inside (fs.after p) c pend := by
  have e : fs.after p = fs.set p.tr := by
    unfold FrameStore.after
    rw [if_neg (show ¬(p.kind = 1 ∨ p.kind = 2) from hk), hp]
    rfl
  obtain ⟨a, b⟩ := set_slots fs p.tr
  refine ⟨fun r hr => ?_, fun r hr => ?_, fun q hq => ?_⟩
  · rw [e, a] at hr; exact h.f0 r hr
  · rw [e, b] at hr; exact h.f1 r hr
  · rw [e, b]; exact h.has q hq

/-- A reference picture before the counter. -/
theorem inside_ref {fs : FrameStore} {c : Nat} {p : Pict} (h : Inside fs c none) (hp : p.newGop = false) (hk : IsRef p.kind)
    (ht : p.tr < c) : Inside (fs.after p) c none := by
  have e : fs.after p = (fs.set p.tr).add p.frame p.tr := by
    unfold FrameStore.after
    rw [if_pos (show p.kind = 1 ∨ p.kind = 2 from hk), hp]
    rfl
  obtain ⟨a, b⟩ := set_slots fs p.tr
  have e0 : (fs.after p).f0 = fs.f1 := by rw [e]; exact b
  have e1 : (fs.after p).f1 = some ⟨p.frame, p.tr, false⟩ := by rw [e]; rfl
  refine ⟨fun r hr => ?_, fun r hr => ?_, fun q hq => (by cases hq)⟩
  · rw [e0] at hr
    rcases h.f1 r hr with k | k | ⟨q, k, _⟩
    · exact .inl k
    · exact .inr k
    · cases k
  · rw [e1] at hr
    cases hr
    exact .inr (.inl ht)

/-- B pictures before the counter are decoded and dropped. -/
theorem bs_skip {c : Nat} {rest : List Pict} {l : List Frame} (hrest : ∀ fs, Inside fs c none → Emits true fs c rest l) :
    ∀ {bs : List Pict} {fs : FrameStore}, (∀ b ∈ bs, b.kind = 3 ∧ b.newGop = false ∧ b.tr < c) → Inside fs c none →
      Emits true fs c (bs ++ rest) l
  | [], fs, _, hi => hrest fs hi
  | b :: bs, fs, h, hi => by
    obtain ⟨h1, h2, h3⟩ := h b (List.mem_cons_self ..)
    refine .miss (by rw [h2]; exact Nat.ne_of_lt h3) ?_
    rw [h2]
    exact bs_skip hrest (fun q hq => h q (List.mem_cons_of_mem _ hq)) (inside_b hi h2 (by rw [h1]; unfold IsRef; omega))

/-- B pictures some of which are due, and the reference picture behind them in display order. -/
theorem bs_due {ref : Pict} {rest : List Pict} {l : List Frame} (hr : ref.tr < 1024)
    (hrest : ∀ fs, Inside fs (ref.tr + 1) none → Emits true fs (ref.tr + 1) rest l) :
    ∀ {bs : List Pict} {t c : Nat} {fs : FrameStore}, (∀ b ∈ bs, b.kind = 3 ∧ b.newGop = false) →
      (∀ i (h : i < bs.length), bs[i].tr = t + i) → t + bs.length = ref.tr → t ≤ c → c < ref.tr → Inside fs c (some ref) →
      Emits true fs c (bs ++ rest) ((bs.drop (c - t)).map (·.frame) ++ (ref.frame :: l)) := by
  intro bs
  induction bs with
  | nil => intro t c fs _ _ h1 h2 h3 _; simp only [List.length_nil] at h1; omega
  | cons b bs ih =>
    intro t c fs hb ht hl hc hlt hi
    obtain ⟨k1, k2⟩ := hb b (List.mem_cons_self ..)
    have kr : ¬IsRef b.kind := by rw [k1]; unfold IsRef; omega
    have k3 : b.tr = t := ht 0 (Nat.succ_pos _)
    have ht' : ∀ i (h : i < bs.length), bs[i].tr = t + 1 + i := fun i h => by
      have := ht (i + 1) (Nat.succ_lt_succ h)
      rw [List.getElem_cons_succ] at this
      omega
    rw [List.length_cons] at hl
    have hb' : ∀ b ∈ bs, b.kind = 3 ∧ b.newGop = false := fun q hq => hb q (List.mem_cons_of_mem _ hq)
    rcases Nat.lt_or_eq_of_le hc with k | rfl
    · -- too late
      obtain ⟨d, rfl⟩ : ∃ d, c = t + 1 + d := ⟨c - (t + 1), by omega⟩
      have e : t + 1 + d - t = d + 1 := by omega
      rw [e, List.drop_succ_cons]
      refine .miss (by rw [k2, k3]; show t ≠ t + 1 + d; omega) ?_
      rw [k2]
      have := ih hb' ht' (by omega) (by omega) hlt (inside_b hi k2 kr)
      rw [show t + 1 + d - (t + 1) = d by omega] at this
      exact this
    · -- due
      rw [Nat.sub_self, List.drop_zero, List.map_cons, List.cons_append, List.cons_append]
      refine .hit (by rw [k2]; exact k3) ?_
      rw [k3]
      have hi' : Inside (fs.after b) (t + 1) (some ref) := hi.b k2 kr (fun q hq => by cases hq; omega)
      by_cases he : t + 1 = ref.tr
      · obtain rfl : bs = [] := List.eq_nil_of_length_eq_zero (by omega)
        rw [he] at hi' ⊢
        refine .wait hi'.get_some hr ?_
        exact .go (hi'.drop.get_none (fun q hq => by cases hq)) (hrest _ hi'.drop)
      · refine .go (hi'.get_none (fun q hq => by cases hq; omega)) ?_
        have := ih hb' ht' (by omega) (Nat.le_refl _) (by omega) hi'
        rw [Nat.sub_self, List.drop_zero] at this
        exact this

/-- A reference picture and its B pictures. -/
theorem group_beyond {g : Group} {base c : Nat} {rest : List Pict} {l : List Frame} {fs : FrameStore} (hg : g.Legal base)
    (hn : g.ref.newGop = false) (hs : base + g.bs.length < 1024) (hc : base ≤ c) (hi : Inside fs c none)
    (hrest : ∀ fs, Inside fs (max c (base + g.bs.length + 1)) none → Emits true fs (max c (base + g.bs.length + 1)) rest l) :
    Emits true fs c (g.coded ++ rest) ((g.display.drop (c - base)).map (·.frame) ++ l) := by
  obtain ⟨hr, hb⟩ := Legal.bsAll hg hs
  have hd : g.display.length = g.bs.length + 1 := by simp [Group.display]
  rw [← hr] at hrest
  rcases Nat.lt_trichotomy g.ref.tr c with k | k | k
  · -- all late
    rw [List.drop_eq_nil_of_le (by omega)]
    rw [show max c (g.ref.tr + 1) = c by omega] at hrest
    refine .miss (by rw [hn]; exact Nat.ne_of_lt k) ?_
    rw [hn]
    exact bs_skip hrest (fun b h => ⟨(hb b h).1, (hb b h).2.1, by have := (hb b h).2.2.2; omega⟩) (inside_ref hi hn hg.ref k)
  · -- only the reference picture is due
    subst k
    rw [show max g.ref.tr (g.ref.tr + 1) = g.ref.tr + 1 by omega] at hrest
    have e : (g.display.drop (g.ref.tr - base)) = [g.ref] := by
      unfold Group.display
      rw [show g.ref.tr - base = g.bs.length by omega, List.drop_left]
    rw [e]
    refine .hit (by rw [hn]; rfl) ?_
    have hi' := (hi.ref hn hg.ref (Nat.le_refl _)).drop
    exact .go (hi'.get_none (fun q hq => by cases hq))
      (bs_skip hrest (fun b h => ⟨(hb b h).1, (hb b h).2.1, by have := (hb b h).2.2.2; omega⟩) hi')
  · rw [show max c (g.ref.tr + 1) = g.ref.tr + 1 by omega] at hrest
    have e : (g.display.drop (c - base)).map (·.frame) ++ l = (g.bs.drop (c - base)).map (·.frame) ++ (g.ref.frame :: l) := by
      unfold Group.display
      rw [List.drop_append_of_le_length (by omega)]
      simp
    rw [e]
    refine .miss (by rw [hn]; exact Nat.ne_of_gt k) ?_
    rw [hn]
    refine bs_due (by omega) hrest hg.bs (fun i h => ?_) (by omega) hc k (hi.ref hn hg.ref (Nat.le_of_lt k))
    rw [hg.bsTr i h, Nat.mod_eq_of_lt (by omega)]

/-- The groups of one group of pictures. -/
theorem from_beyond {rest : List Pict} {l : List Frame} : ∀ {gs : List Group} {base c : Nat} {fs : FrameStore}, LegalFrom base gs →
    base + (display gs).length ≤ 1024 → base ≤ c → Inside fs c none →
    (∀ fs, Inside fs (max c (base + (display gs).length)) none → Emits true fs (max c (base + (display gs).length)) rest l) →
    Emits true fs c (coded gs ++ rest) (((display gs).drop (c - base)).map (·.frame) ++ l)
  | [], base, c, fs, _, _, hc, hi, hrest => by
    have : max c (base + (display ([] : List Group)).length) = c := by simp [display]; omega
    rw [this] at hrest
    simpa [coded, display] using hrest fs hi
  | g :: gs, base, c, fs, h, hs, hc, hi, hrest => by
    cases h with
    | cons h1 h2 h3 =>
      have e : display (g :: gs) = g.display ++ display gs := by simp [display]
      have hd : g.display.length = g.bs.length + 1 := by simp [Group.display]
      have hlen : (display (g :: gs)).length = g.bs.length + 1 + (display gs).length := by rw [e, List.length_append, hd]
      have ec : coded (g :: gs) ++ rest = g.coded ++ (coded gs ++ rest) := by simp [coded]
      rw [ec, e, List.drop_append, List.map_append, List.append_assoc]
      rw [show base + (display (g :: gs)).length = base + g.bs.length + 1 + (display gs).length by omega] at hrest
      refine group_beyond h1 h2 (by omega) hc hi fun fs hi => ?_
      have := from_beyond (rest := rest) (l := l) (c := max c (base + g.bs.length + 1)) h3 (by omega) (by omega) hi (by
        rw [show max (max c (base + g.bs.length + 1)) (base + g.bs.length + 1 + (display gs).length) =
          max c (base + g.bs.length + 1 + (display gs).length) by omega]
        exact hrest)
      rw [show max c (base + g.bs.length + 1) - (base + g.bs.length + 1) = c - base - g.display.length by omega] at this
      exact this

/-- Groups of pictures without headers. -/
theorem bare_beyond {rest : List Pict} {l : List Frame} (hrest : ∀ fs c, Emits true fs c rest l) : ∀ {gops : List (List Group)} {c : Nat}
    {fs : FrameStore}, (∀ gs ∈ gops, LegalFrom 0 gs) → Short gops → Inside fs c none →
    Emits true fs c (gops.flatMap coded ++ rest) (beyond c gops ++ l)
  | [], c, fs, _, _, _ => hrest fs c
  | gs :: gops, c, fs, h, hs, hi => by
    have key := from_beyond (rest := gops.flatMap coded ++ rest) (l := beyond (max c (display gs).length) gops ++ l) (c := c) (fs := fs)
      (h gs (List.mem_cons_self ..)) (by have := hs gs (List.mem_cons_self ..); omega) (Nat.zero_le _) hi (by
        rw [Nat.zero_add]
        intro fs hi
        exact bare_beyond hrest (fun g hg => h g (List.mem_cons_of_mem _ hg)) (fun g hg => hs g (List.mem_cons_of_mem _ hg)) hi)
    rw [List.flatMap_cons, List.append_assoc]
    simpa [beyond] using key

/-- Many headed groups of pictures, each with the groups of pictures that have lost their headers behind it. -/
theorem clusters_beyond : ∀ {cs : List Cluster}, (∀ c ∈ cs, c.Legal) → ∀ fs c,
    Emits true fs c (cs.flatMap Cluster.coded) (cs.flatMap fun c => beyond 0 c.all)
  | [], _, fs, c => .done
  | ⟨gs, gops⟩ :: cs, h, fs, c => by
    have ih := clusters_beyond fun x hx => h x (List.mem_cons_of_mem _ hx)
    obtain ⟨h1, h2, h3⟩ := h _ (List.mem_cons_self ..)
    cases h1 with
    | @mk g gs k1 k2 k3 =>
      have hl : LegalFrom 0 (⟨{ g.ref with newGop := false }, g.bs⟩ :: gs) :=
        .cons ⟨k1.ref, k1.refTr, k1.bs, k1.bsTr⟩ rfl (by simpa using k3)
      have hf : ∀ n, ((display (⟨{ g.ref with newGop := false }, g.bs⟩ :: gs)).drop n).map (·.frame) =
          ((display (g :: gs)).drop n).map (·.frame) := fun n => by
        rw [List.map_drop, List.map_drop]; simp [display, Group.display]
      have hlen : (display (⟨{ g.ref with newGop := false }, g.bs⟩ :: gs)).length = (display (g :: gs)).length := by
        simp [display, Group.display]
      have hb : ∀ n, beyond n ((⟨{ g.ref with newGop := false }, g.bs⟩ :: gs) :: gops) = beyond n ((g :: gs) :: gops) := fun n => by
        simp only [beyond, hf, hlen]
      have key := bare_beyond ih (gops := (⟨{ g.ref with newGop := false }, g.bs⟩ :: gs) :: gops) (c := 0) (fs := fs.entered true)
        (fun x hx => by
          rcases List.mem_cons.1 hx with rfl | hx
          · exact hl
          · exact h2 x hx)
        (fun x hx => by
          rcases List.mem_cons.1 hx with rfl | hx
          · rw [hlen]; exact h3 _ (List.mem_cons_self ..)
          · exact h3 x (List.mem_cons_of_mem _ hx))
        (by
          refine ⟨fun r hr => ?_, fun r hr => ?_, fun q h => (by cases h)⟩ <;>
          · simp only [FrameStore.entered, FrameStore.markGOP, ↓reduceIte, Option.map_eq_some_iff] at hr
            obtain ⟨a, _, rfl⟩ := hr
            exact .inl rfl)
      rw [hb] at key
      have e : (⟨g :: gs, gops⟩ :: cs : List Cluster).flatMap Cluster.coded =
          g.ref :: (g.bs ++ (coded gs ++ (gops.flatMap coded ++ cs.flatMap Cluster.coded))) := by
        simp [Cluster.coded, Cluster.all, coded, Group.coded]
      rw [e]
      refine emits_enter k2 ?_
      have e2 : ((⟨{ g.ref with newGop := false }, g.bs⟩ :: gs) :: gops).flatMap coded ++ cs.flatMap Cluster.coded =
          { g.ref with newGop := false } :: (g.bs ++ (coded gs ++ (gops.flatMap coded ++ cs.flatMap Cluster.coded))) := by
        simp [coded, Group.coded]
      rw [e2] at key
      exact key

end HeadLost

/-- **C150** Of a stream in which any groups of pictures have lost their headers, but no pictures, successive calls of `Next` return: all
pictures of every group of pictures with a header; of a group of pictures without header the pictures whose position in display order is not
below the number of pictures of any group of pictures since the last header (that one included); and nothing else.  The next call reports
what the stream holds behind the pictures.  Partial: the other pictures are lost, see `C150_false`. -/
theorem C150_partial {fuel k : Nat} {br : BR} {cs : List Cluster} {s' : VS} (hc : ∀ c ∈ cs, c.Legal)
    (h : Run fuel (VS.new br) (cs.flatMap Cluster.coded) s') (hk : (cs.flatMap Cluster.coded).length < k) :
    ∃ t, nexts fuel k (cs.flatMap fun c => beyond 0 c.all).length (VS.new br) = (.ok (cs.flatMap fun c => beyond 0 c.all), t) ∧
      ∀ e, (step fuel s').1 = .err e → (VS.next fuel k t).1 = .err e := by
  have hp : Emits false (VS.new br).fs 0 (cs.flatMap Cluster.coded) (cs.flatMap fun c => beyond 0 c.all) :=
    .go rfl (HeadLost.clusters_beyond hc _ _)
  obtain ⟨t, n1, _⟩ := emits_calls (k := k) (e := .eof) hp (k' := k) rfl rfl h hk hk
  refine ⟨t, n1, fun e he => ?_⟩
  obtain ⟨u, m1, m2⟩ := emits_calls (k := k) (e := e) hp (k' := k) rfl rfl h hk hk
  rw [n1] at m1
  cases m1
  exact m2 he

/-- A group of pictures that is no longer than the longest one before it contributes nothing. -/
theorem C150_nothing {n : Nat} {gs : List Group} {rest : List (List Group)} (h : (display gs).length ≤ n) :
    beyond n (gs :: rest) = beyond n rest := by
  rw [beyond, List.drop_eq_nil_of_le h, Nat.max_eq_left h]
  rfl

/-- Of a headed group of pictures, and of groups of pictures without header behind it, as many pictures are returned as the longest of these
groups has: a stream with a header only at its beginning gives no more than 1024 pictures. -/
theorem C150_count {n : Nat} {gops : List (List Group)} : (beyond n gops).length = (gops.foldl (fun m gs => max m (display gs).length) n) - n := by
  have hmono : ∀ {gops : List (List Group)} {n : Nat}, n ≤ gops.foldl (fun m gs => max m (display gs).length) n := by
    intro gops
    induction gops with
    | nil => intro n; exact Nat.le_refl _
    | cons gs gops ih => intro n; exact Nat.le_trans (Nat.le_max_left ..) ih
  induction gops generalizing n with
  | nil => simp [beyond]
  | cons gs gops ih =>
    rw [List.foldl_cons, beyond, List.length_append, List.length_map, List.length_drop, ih]
    have := hmono (gops := gops) (n := max n (display gs).length)
    omega

/-- **C150** The loss of a header costs pictures: of a stream of a group of pictures with header and any number of groups of pictures without
header that are not longer, exactly the pictures of the first group are returned, and then the end of the stream is reported, although all
pictures were decoded. -/
theorem C150_false {fuel k : Nat} {br : BR} {c : Cluster} {s' : VS} {e : Err} (hc : c.Legal)
    (hl : ∀ gs ∈ c.bare, (display gs).length ≤ (display c.headed).length) (h : Run fuel (VS.new br) c.coded s') (hk : c.coded.length < k)
    (he : (step fuel s').1 = .err e) :
    ∃ t, nexts fuel k (display c.headed).length (VS.new br) = (.ok ((display c.headed).map (·.frame)), t) ∧ (VS.next fuel k t).1 = .err e := by
  have key := C150_partial (k := k) (br := br) (s' := s') (fuel := fuel) (cs := [c]) (fun x hx => by rw [List.mem_singleton.1 hx]; exact hc)
    (by simpa using h) (by simpa using hk)
  have hn : ∀ {gops : List (List Group)} {n : Nat}, (∀ gs ∈ gops, (display gs).length ≤ n) → beyond n gops = [] := by
    intro gops n
    induction gops with
    | nil => intro _; rfl
    | cons gs gops ih =>
      intro h
      rw [C150_nothing (h gs (List.mem_cons_self ..))]
      exact ih fun g hg => h g (List.mem_cons_of_mem _ hg)
  have eb : [c].flatMap (fun c => beyond 0 c.all) = (display c.headed).map (·.frame) := by
    simp only [List.flatMap_cons, List.flatMap_nil, List.append_nil, Cluster.all, beyond, Nat.zero_max, List.drop_zero]
    rw [hn hl, List.append_nil]
  rw [eb] at key
  obtain ⟨t, n1, n2⟩ := key
  rw [List.length_map] at n1
  exact ⟨t, n1, n2 e he⟩

namespace HeadLostEx
open ExOrder

/-- 16 x 16; three groups of pictures, of two, three and one pictures (in coding order I B, I I B, I); the header of the second is missing -/
def stream : List Bool :=
  byte (encSeq ⟨16, 16, 1, 3, 100, 20, false, none, none⟩) ++ byte (encSeqExt ⟨0x48, 1, 1, 0, 0, 0, true, 0, 0, 0, 0⟩) ++
  (byte (encGOP ⟨false, 0, 0, true, 0, 0, true, false⟩) ++ iPic 1 ++ bPic 0) ++ (iPic 0 ++ iPic 2 ++ bPic 1) ++
  (byte (encGOP ⟨false, 0, 0, true, 0, 5, true, false⟩) ++ iPic 0) ++ bitsOf 32 0x1B7

def s0 : VS := VS.new ⟨stream, 0, .eof, []⟩
def s1 : VS := after s0
def s2 : VS := after s1
def s3 : VS := after s2
def s4 : VS := after s3
def s5 : VS := after s4
def s6 : VS := after s5

theorem run : Run 20 s0 [pictAt s0, pictAt s1, pictAt s2, pictAt s3, pictAt s4, pictAt s5] s6 :=
  run_one (by decide +kernel) (by decide +kernel) (by decide +kernel) <|
  run_one (by decide +kernel) (by decide +kernel) (by decide +kernel) <|
  run_one (by decide +kernel) (by decide +kernel) (by decide +kernel) <|
  run_one (by decide +kernel) (by decide +kernel) (by decide +kernel) <|
  run_one (by decide +kernel) (by decide +kernel) (by decide +kernel) <|
  run_one (by decide +kernel) (by decide +kernel) (by decide +kernel) <| .nil _

theorem eos : (step 20 s6).1 = .err .eos := isEos_eq (by decide +kernel)

theorem facts : ([s0, s1, s2, s3, s4, s5].map fun s => ((pictAt s).newGop, (pictAt s).kind, (pictAt s).tr)) =
    [(true, 1, 1), (false, 3, 0), (false, 1, 0), (false, 1, 2), (false, 3, 1), (true, 1, 0)] := by decide +kernel

def cs : List Cluster :=
  [⟨[⟨pictAt s0, [pictAt s1]⟩], [[⟨pictAt s2, []⟩, ⟨pictAt s3, [pictAt s4]⟩]]⟩, ⟨[⟨pictAt s5, []⟩], []⟩]

theorem single {b : Pict} {r : Pict} {base : Nat} (h1 : r.kind = 1) (h2 : r.tr = (base + 1) % 1024) (h3 : b.kind = 3) (h4 : b.newGop = false)
    (h5 : b.tr = base % 1024) : Group.Legal ⟨r, [b]⟩ base :=
  ⟨.inl h1, h2, fun x hx => by rw [List.mem_singleton.1 hx]; exact ⟨h3, h4⟩, fun i hi => by
    have hi : i < 1 := hi
    obtain rfl : i = 0 := by omega
    exact h5⟩
theorem alone {r : Pict} {base : Nat} (h1 : r.kind = 1) (h2 : r.tr = base % 1024) : Group.Legal ⟨r, []⟩ base :=
  ⟨.inl h1, h2, fun x hx => (by cases hx), fun i hi => absurd hi (Nat.not_lt_zero _)⟩

theorem legal : ∀ c ∈ cs, c.Legal := by
  have hf := facts
  simp only [List.map_cons, List.map_nil, List.cons.injEq, Prod.mk.injEq, and_true] at hf
  obtain ⟨⟨a1, a2, a3⟩, ⟨b1, b2, b3⟩, ⟨c1, c2, c3⟩, ⟨d1, d2, d3⟩, ⟨e1, e2, e3⟩, f1, f2, f3⟩ := hf
  intro c hc
  rcases List.mem_cons.1 hc with rfl | hc
  · refine ⟨.mk (single a2 a3 b2 b1 b3) a1 .nil, fun gs hgs => ?_, fun gs hgs => ?_⟩
    · rw [List.mem_singleton.1 hgs]
      exact .cons (alone c2 c3) c1 (.cons (single d2 d3 e2 e1 e3) d1 .nil)
    · rcases List.mem_cons.1 hgs with rfl | hgs
      · simp [display, Group.display]
      · rw [List.mem_singleton.1 hgs]; simp [display, Group.display]
  · rw [List.mem_singleton.1 hc]
    refine ⟨.mk (alone f2 f3) f1 .nil, fun gs hgs => (by cases hgs), fun gs hgs => ?_⟩
    rw [List.mem_singleton.1 hgs]; simp [display, Group.display]

/-- six pictures are decoded, four are returned: of the group of pictures without header only the last one -/
example : ∃ t, nexts 20 7 4 s0 = (.ok [(pictAt s1).frame, (pictAt s0).frame, (pictAt s3).frame, (pictAt s5).frame], t) ∧
    (VS.next 20 7 t).1 = .err .eos := by
  have e1 : cs.flatMap Cluster.coded = [pictAt s0, pictAt s1, pictAt s2, pictAt s3, pictAt s4, pictAt s5] := by
    simp [cs, Cluster.coded, Cluster.all, coded, Group.coded]
  have e2 : cs.flatMap (fun c => beyond 0 c.all) = [(pictAt s1).frame, (pictAt s0).frame, (pictAt s3).frame, (pictAt s5).frame] := by
    simp [cs, Cluster.all, beyond, display, Group.display]
  obtain ⟨t, h1, h2⟩ := C150_partial (k := 7) legal (by rw [e1]; exact run) (by rw [e1]; simp only [List.length_cons, List.length_nil]; omega)
  rw [e2] at h1
  exact ⟨t, h1, h2 _ eos⟩

/-- two groups of pictures, I B and I I; the header of the second is missing -/
def stream2 : List Bool :=
  byte (encSeq ⟨16, 16, 1, 3, 100, 20, false, none, none⟩) ++ byte (encSeqExt ⟨0x48, 1, 1, 0, 0, 0, true, 0, 0, 0, 0⟩) ++
  (byte (encGOP ⟨false, 0, 0, true, 0, 0, true, false⟩) ++ iPic 1 ++ bPic 0) ++ (iPic 0 ++ iPic 1) ++ bitsOf 32 0x1B7
def t0 : VS := VS.new ⟨stream2, 0, .eof, []⟩
def t1 : VS := after t0
def t2 : VS := after t1
def t3 : VS := after t2
def t4 : VS := after t3
theorem run2 : Run 20 t0 [pictAt t0, pictAt t1, pictAt t2, pictAt t3] t4 :=
  run_one (by decide +kernel) (by decide +kernel) (by decide +kernel) <|
  run_one (by decide +kernel) (by decide +kernel) (by decide +kernel) <|
  run_one (by decide +kernel) (by decide +kernel) (by decide +kernel) <|
  run_one (by decide +kernel) (by decide +kernel) (by decide +kernel) <| .nil _
theorem facts2 : ([t0, t1, t2, t3].map fun s => ((pictAt s).newGop, (pictAt s).kind, (pictAt s).tr)) =
    [(true, 1, 1), (false, 3, 0), (false, 1, 0), (false, 1, 1)] := by decide +kernel

/-- the second group of pictures is lost as a whole -/
example : ∃ t, nexts 20 5 2 t0 = (.ok [(pictAt t1).frame, (pictAt t0).frame], t) ∧ (VS.next 20 5 t).1 = .err .eos := by
  have hf := facts2
  simp only [List.map_cons, List.map_nil, List.cons.injEq, Prod.mk.injEq, and_true] at hf
  obtain ⟨⟨a1, a2, a3⟩, ⟨b1, b2, b3⟩, ⟨c1, c2, c3⟩, d1, d2, d3⟩ := hf
  have := C150_false (k := 5) (c := ⟨[⟨pictAt t0, [pictAt t1]⟩], [[⟨pictAt t2, []⟩, ⟨pictAt t3, []⟩]]⟩) (br := ⟨stream2, 0, .eof, []⟩) (s' := t4)
    (fuel := 20) (e := .eos)
    ⟨.mk (single a2 a3 b2 b1 b3) a1 .nil, fun gs hgs => by
      rw [List.mem_singleton.1 hgs]; exact .cons (alone c2 c3) c1 (.cons (alone d2 d3) d1 .nil), fun gs hgs => by
      rcases List.mem_cons.1 hgs with rfl | hgs
      · simp [display, Group.display]
      · rw [List.mem_singleton.1 hgs]; simp [display, Group.display]⟩
    (fun gs hgs => by rw [List.mem_singleton.1 hgs]; simp [display, Group.display])
    (by simp only [Cluster.coded, Cluster.all, coded, Group.coded, List.flatMap_cons, List.flatMap_nil, List.cons_append, List.nil_append]; exact run2) (by simp [Cluster.coded, Cluster.all, coded, Group.coded])
    (isEos_eq (by decide +kernel))
  simp only [display, Group.display, List.flatMap_cons, List.flatMap_nil, List.cons_append, List.nil_append] at this
  exact this

end HeadLostEx

end Mpeg.Video
