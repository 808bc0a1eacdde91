/-
C123: lost transport packets.
-/
import Verif.Pipe.RetryProps
import Verif.Pipe.StraightProps
import Verif.TS.IsolationProps
import Verif.Video.SliceLossProps2
set_option linter.all false
namespace Mpeg.Pipe
open PES.Spec TS.Spec

/-! ### payload units, PES packets of unknown length -/

/-- A transport packet together with the bytes `es` that it contributes to the elementary stream on PID `k`: the packet that
starts a unit has the whole PES header in front of them, all other packets of the PID carry nothing else, packets of other
PIDs contribute nothing. -/
structure Piece (k : Nat) (p : Pkt) (es : List UInt8) : Prop where
  legal : p.WF ∧ p.body.Plain
  payload : p.hdr.pid = k → p.body.hasPayload = true
  first : TS.starts k p = true → ∃ w : PesPkt, w.WF ∧ w.data = es ∧ bitsOfBytes p.body.data = encUnbounded w.id w.hdr es
  other : p.hdr.pid = k → TS.starts k p = false → es = p.body.data
  foreign : p.hdr.pid ≠ k → es = []

/-- from the first unit start to the last one, which does not belong to it -/
def core (k : Nat) (l : List (Pkt × List UInt8)) : List (Pkt × List UInt8) :=
  (((l.dropWhile fun x => !TS.starts k x.1).reverse.dropWhile fun x => !TS.starts k x.1).drop 1).reverse

/-- Division into what is in front of the first start and one group for every start. -/
def split (k : Nat) : List (Pkt × List UInt8) → List (Pkt × List UInt8) × List ((Pkt × List UInt8) × List (Pkt × List UInt8))
  | [] => ([], [])
  | x :: l => if TS.starts k x.1 then ([], (x, (split k l).1) :: (split k l).2) else (x :: (split k l).1, (split k l).2)

theorem split_eq (k : Nat) : ∀ l, l = (split k l).1 ++ ((split k l).2.map fun g => g.1 :: g.2).flatten
  | [] => rfl
  | x :: l => by
    have ih := split_eq k l
    unfold split
    split
    · simp only [List.nil_append, List.map_cons, List.flatten_cons, List.cons_append]
      rw [← ih]
    · simp only [List.cons_append]
      rw [← ih]
theorem split_pre (k : Nat) : ∀ l, ∀ x ∈ (split k l).1, TS.starts k x.1 = false
  | [], x, hx => by cases hx
  | y :: l, x, hx => by
    unfold split at hx
    split at hx
    · cases hx
    · rename_i h
      cases hx with
      | head => simpa using h
      | tail _ hx => exact split_pre k l x hx
theorem split_groups (k : Nat) : ∀ l, ∀ g ∈ (split k l).2, TS.starts k g.1.1 = true ∧ ∀ x ∈ g.2, TS.starts k x.1 = false
  | [], g, hg => by cases hg
  | y :: l, g, hg => by
    unfold split at hg
    split at hg
    · rename_i h
      cases hg with
      | head => exact ⟨h, split_pre k l⟩
      | tail _ hg => exact split_groups k l g hg
    · exact split_groups k l g hg

theorem dropWhile_all {α : Type} {p : α → Bool} : ∀ {a : List α} {b : List α}, (∀ x ∈ a, p x = true) → (a ++ b).dropWhile p = b.dropWhile p
  | [], _, _ => rfl
  | x :: a, b, h => by
    rw [List.cons_append, List.dropWhile_cons_of_pos (h x (.head _))]
    exact dropWhile_all fun y hy => h y (.tail _ hy)

theorem core_split (k : Nat) (l : List (Pkt × List UInt8)) :
    core k l = ((split k l).2.dropLast.map fun g => g.1 :: g.2).flatten := by
  have e := split_eq k l
  have hp := split_pre k l
  have hg := split_groups k l
  generalize (split k l).1 = pre at e hp ⊢
  generalize (split k l).2 = gs at e hg ⊢
  unfold core
  rw [e, dropWhile_all (by intro x hx; rw [hp x hx]; rfl)]
  have h1 : ((gs.map fun g => g.1 :: g.2).flatten.dropWhile fun x => !TS.starts k x.1) = (gs.map fun g => g.1 :: g.2).flatten := by
    cases gs with
    | nil => rfl
    | cons g gs =>
      rw [List.map_cons, List.flatten_cons, List.cons_append, List.dropWhile_cons_of_neg]
      rw [(hg g (.head _)).1]; decide
  rw [h1]
  rcases List.eq_nil_or_concat gs with rfl | ⟨gs', g, rfl⟩
  · rfl
  · have hl := hg g (by simp)
    simp only [List.concat_eq_append, List.map_append, List.map_cons, List.map_nil, List.flatten_append, List.flatten_cons, List.flatten_nil,
      List.append_nil, List.dropLast_concat, List.reverse_append, List.reverse_cons, List.append_assoc]
    rw [dropWhile_all (by intro x hx; rw [hl.2 x (List.mem_reverse.mp hx)]; rfl), List.cons_append, List.dropWhile_cons_of_neg (by rw [hl.1]; decide)]
    simp

theorem pidBytes_pieces {k : Nat} : ∀ {l : List (Pkt × List UInt8)}, (∀ x ∈ l, Piece k x.1 x.2) → (∀ x ∈ l, TS.starts k x.1 = false) →
    TS.pidBytes k (l.map (·.1)) = l.flatMap (·.2)
  | [], _, _ => rfl
  | x :: l, h, hs => by
    have ih := pidBytes_pieces (l := l) (fun y hy => h y (.tail _ hy)) (fun y hy => hs y (.tail _ hy))
    have hx := h x (.head _)
    by_cases hk : x.1.hdr.pid = k
    · rw [List.map_cons, TS.pidBytes_cons hk, ih, List.flatMap_cons, ← hx.other hk (hs x (.head _))]
    · have : TS.pidBytes k (x.1 :: l.map (·.1)) = TS.pidBytes k (l.map (·.1)) := by
        unfold TS.pidBytes
        rw [List.filter_cons_of_neg (by simpa using hk)]
      rw [List.map_cons, this, ih, List.flatMap_cons, hx.foreign hk, List.nil_append]

theorem units_of {k : Nat} : ∀ {gs : List ((Pkt × List UInt8) × List (Pkt × List UInt8))},
    (∀ g ∈ gs, (∀ x ∈ g.1 :: g.2, Piece k x.1 x.2) ∧ TS.starts k g.1.1 = true ∧ ∀ x ∈ g.2, TS.starts k x.1 = false) →
    ∃ us : List PesUnit, gs.map (fun g => bitsOfBytes (TS.pidBytes k (g.1.1 :: g.2.map (·.1)))) = us.map PesUnit.enc ∧
      (∀ u ∈ us, u.WF) ∧ (∀ u ∈ us, u.last.isSome) ∧ us.flatMap (·.payload) = (gs.map fun g => g.1 :: g.2).flatten.flatMap (·.2) ∧
      count us = gs.length
  | [], _ => ⟨[], rfl, by simp, by simp, rfl, rfl⟩
  | g :: gs, h => by
    obtain ⟨us, h1, h2, h3, h4, h5⟩ := units_of (gs := gs) fun g' hg => h g' (.tail _ hg)
    obtain ⟨hp, hs, ho⟩ := h g (.head _)
    obtain ⟨w, hw, hd, he⟩ := (hp g.1 (.head _)).first hs
    have hpid : g.1.1.hdr.pid = k := by
      unfold TS.starts at hs
      simp only [Bool.and_eq_true, beq_iff_eq] at hs
      exact hs.1
    have hb := pidBytes_pieces (fun x hx => hp x (.tail _ hx)) ho
    refine ⟨⟨[], some { w with data := g.1.2 ++ g.2.flatMap (·.2) }⟩ :: us, ?_, ?_, ?_, ?_, ?_⟩
    · rw [List.map_cons, List.map_cons, h1, TS.pidBytes_cons hpid, hb, bitsOfBytes_append, he]
      simp [PesUnit.enc, encUnbounded, bitsOfBytes_append]
    · intro u hu
      cases hu with
      | head => exact ⟨by simp, fun p hp => by cases hp; exact hw⟩
      | tail _ hu => exact h2 u hu
    · intro u hu
      cases hu with
      | head => rfl
      | tail _ hu => exact h3 u hu
    · rw [List.flatMap_cons, h4, List.map_cons, List.flatten_cons, List.flatMap_append, List.flatMap_cons]
      simp [PesUnit.payload]
    · simp only [count, List.map_cons, List.sum_cons] at h5 ⊢
      rw [h5, List.length_cons]
      show 0 + 1 + gs.length = gs.length + 1
      omega

/-- the bits of the packets -/
def stream (l : List (Pkt × List UInt8)) : List Bool := (l.map fun x => encPkt x.1).flatten

/-- The two readers deliver what the packets contribute, whatever the packets are. -/
theorem pieces_read {k fuel fuel' : Nat} {l : List (Pkt × List UInt8)} (h : ∀ x ∈ l, Piece k x.1 x.2) (hf : l.length < fuel) (hf' : l.length < fuel') :
    ∃ br, IsSource (puReads fuel k (stream l)) br ∧
      ∀ ns, pesReads fuel' br ns = .ok (TS.Spec.deliver ((core k l).flatMap (·.2)) .eof ns) := by
  have e := split_eq k l
  have hp := split_pre k l
  have hg := split_groups k l
  have hc := core_split k l
  rw [hc]
  have hgr : ∀ g ∈ (split k l).2, ∀ x ∈ g.1 :: g.2, x ∈ l := by
    intro g hg x hx
    rw [e]
    exact List.mem_append_right _ (List.mem_flatten.mpr ⟨_, List.mem_map.mpr ⟨g, hg, rfl⟩, hx⟩)
  have hpr : ∀ x ∈ (split k l).1, x ∈ l := by
    intro x hx
    rw [e]
    exact List.mem_append_left _ hx
  obtain ⟨us, h1, h2, h3, h4, h5⟩ := units_of (k := k) (gs := (split k l).2.dropLast) fun g hgd =>
    have hm := List.dropLast_subset _ hgd
    ⟨fun x hx => h x (hgr g hm x hx), hg g hm⟩
  have emap : ((split k l).1.map (·.1)) ++ (((split k l).2.map fun g => (g.1.1, g.2.map (·.1))).map fun g => g.1 :: g.2).flatten = l.map (·.1) := by
    conv => rhs; rw [e]
    simp [List.map_flatten, List.map_map, Function.comp_def]
  have hC : Carries k ((split k l).1.map (·.1)) ((split k l).2.map fun g => (g.1.1, g.2.map (·.1))) us := by
    refine ⟨?_, ?_, ?_, ?_, ?_, h2⟩
    · rw [emap]
      intro p hp
      obtain ⟨x, hx, rfl⟩ := List.mem_map.mp hp
      exact (h x hx).legal
    · intro p hp
      have : p ∈ l.map (·.1) := by rw [← emap]; exact List.mem_append_right _ hp
      obtain ⟨x, hx, rfl⟩ := List.mem_map.mp this
      exact (h x hx).payload
    · intro p hpp
      obtain ⟨x, hx, rfl⟩ := List.mem_map.mp hpp
      exact hp x hx
    · intro g hgg
      obtain ⟨g', hg', rfl⟩ := List.mem_map.mp hgg
      refine ⟨(hg g' hg').1, fun p hpp => ?_⟩
      obtain ⟨x, hx, rfl⟩ := List.mem_map.mp hpp
      exact (hg g' hg').2 x hx
    · rw [← List.map_dropLast, List.map_map]
      exact h1
  have hlen : (((split k l).1.map (·.1)) ++ (((split k l).2.map fun g => (g.1.1, g.2.map (·.1))).map fun g => g.1 :: g.2).flatten).length < fuel := by
    rw [emap, List.length_map]; exact hf
  have hcount : count us < fuel' := by
    rw [h5, List.length_dropLast]
    have : (split k l).2.length ≤ l.length := by
      clear * -
      induction l with
      | nil => exact Nat.le_refl _
      | cons x l ih =>
        unfold split
        split <;> simp only [List.length_cons] <;> omega
    omega
  have hstream : tsBits ((split k l).1.map (·.1)) ((split k l).2.map fun g => (g.1.1, g.2.map (·.1))) = stream l := by
    unfold tsBits stream
    rw [emap, List.map_map]
    rfl
  rw [← hstream]
  have hsrc := pu_source hC hlen
  refine ⟨_, hsrc, fun ns => ?_⟩
  rw [C61_open_partial hC h3 hlen hcount _ hsrc ns, h4]

/-- **C123**, payload units, PES packets of unknown length with their headers within the first transport packet of the unit.
Whatever transport packets are lost (`l'` is left of `l`), the elementary stream is the concatenation of the bytes that the
packets received carry: a lost packet costs its own bytes and nothing else.  As in C14, the last unit is not delivered. -/
theorem C123_units {k fuel fuel' : Nat} {l l' : List (Pkt × List UInt8)} (h : ∀ x ∈ l, Piece k x.1 x.2) (hl : l'.Sublist l)
    (hf : l.length < fuel) (hf' : l.length < fuel') :
    (∃ br, IsSource (puReads fuel k (stream l')) br) ∧ ∀ br, IsSource (puReads fuel k (stream l')) br →
      ∀ ns, pesReads fuel' br ns = .ok (TS.Spec.deliver ((core k l').flatMap (·.2)) .eof ns) := by
  have := hl.length_le
  obtain ⟨br, h1, h2⟩ := pieces_read (l := l') (fuel := fuel) (fuel' := fuel') (fun x hx => h x (hl.subset hx)) (by omega) (by omega)
  refine ⟨⟨br, h1⟩, fun br' hb ns => ?_⟩
  obtain rfl := hb.unique h1
  exact h2 ns

/-- **C123**, pictures (partial, as C119 and C123_units): the elementary stream of the packets `l` is a stream of pictures.  It
falls apart into segments, one for every slice and the headers between them, and the packets that are lost carried whole
slices (`gs` says which).  Then the decoder on top of the two readers returns all pictures, and every picture whose reference
pictures are not damaged is shown as it was sent, except for the macroblocks of its lost slices. -/
theorem C123_pictures_partial {fuelV kV : Nat} {W H lead : Nat} {cgs : List Video.Spec.CGroup} {bits rest : List Bool}
    {imgs : List Video.Spec.Image} (hk : 2 ≤ kV) (hgs : cgs ≠ [])
    (h : Video.Spec.GroupsCode W H 0 none none (8 * lead) cgs bits imgs) (hfv : bits.length < fuelV) :
    ∃ segs : List Video.Spec.Segment, bits = segs.flatMap (·.bits) ∧ segs.filterMap (·.slice) = Video.Spec.allSlices cgs ∧
      (∀ s ∈ segs, s.bits.length % 8 = 0 ∧ ∀ sl, s.slice = some sl → ∃ t, s.bits = bitsOf 32 (0x101 + sl.row) ++ t) ∧
      ∀ (k fuel fuel' : Nat) (l : List (Pkt × List UInt8)), (∀ x ∈ l, Piece k x.1 x.2) → l.length < fuel → l.length < fuel' →
      bitsOfBytes ((core k l).flatMap (·.2)) = Video.Spec.zeros (8 * lead) ++ (bits ++ (bitsOf 32 0x1B7 ++ rest)) →
      ∀ (gs : List Video.Spec.LGroup) (l' : List (Pkt × List UInt8)), gs.map (·.sent) = cgs → (∀ g ∈ gs, g.OK) → l'.Sublist l →
        bitsOfBytes ((core k l').flatMap (·.2)) =
          Video.Spec.zeros (8 * lead) ++ (Video.Spec.keep (Video.Spec.lossFlags gs) segs ++ (bitsOf 32 0x1B7 ++ rest)) →
        (∃ br br', IsSource (puReads fuel k (stream l')) br ∧ IsSource (pesReads fuel' br) br') ∧
        ∀ br br', IsSource (puReads fuel k (stream l')) br → IsSource (pesReads fuel' br) br' →
        ∃ frames t, Video.nexts fuelV kV imgs.length (Video.VS.new br') = (.ok frames, t) ∧ frames.length = imgs.length ∧
          (Video.Spec.exposed false gs).length = imgs.length ∧
          (∀ i (h1 : i < frames.length) (h2 : i < imgs.length) (h3 : i < (Video.Spec.exposed false gs).length),
            Video.Spec.Geometry frames[i] W H ∧ ∀ c x y, c < 3 → x < Video.Spec.side c * W → y < Video.Spec.side c * H →
              ((Video.Spec.exposed false gs)[i].1 = false →
                (∀ sl ∈ (Video.Spec.exposed false gs)[i].2.lost, ¬ sl.Covers (Video.Spec.exposed false gs)[i].2.sent.hdr.kind.code c x y) →
                Video.Spec.sampleOf frames[i] c x y = imgs[i] c x y) ∧
              ((∀ sl ∈ (Video.Spec.exposed false gs)[i].2.got, ¬ sl.Covers (Video.Spec.exposed false gs)[i].2.sent.hdr.kind.code c x y) →
                Video.Spec.sampleOf frames[i] c x y = 0)) ∧
          (Video.VS.next fuelV kV t).1 = .err .eos := by
  obtain ⟨segs, s1, s2, s3, s4⟩ := Video.C119_partial (stop := .eof) (later := []) (rest := rest) hk hgs h hfv
  refine ⟨segs, s1, s2, s3, fun k fuel fuel' l hp hf hf' _ gs l' g1 g2 hl he => ?_⟩
  obtain ⟨⟨br0, hbr0⟩, hrd⟩ := C123_units hp hl hf hf'
  have key : ∀ br, IsSource (puReads fuel k (stream l')) br →
      IsSource (pesReads fuel' br) ⟨bitsOfBytes ((core k l').flatMap (·.2)), 0, .eof, []⟩ := by
    intro br hbr
    refine ⟨_, .eof, [], rfl, fun ns _ => ?_⟩
    rw [hrd br hbr ns, deliver_segs]
  refine ⟨⟨br0, _, hbr0, key br0 hbr0⟩, fun br br' h1 h2 => ?_⟩
  obtain rfl := h2.unique (key br h1)
  obtain ⟨frames, t, f1, f2, f3, f4, f5, _⟩ := s4 gs g1 g2
  refine ⟨frames, t, ?_, f2, f3, f4, f5⟩
  rw [he]
  exact f1

/-! ### PES packets of known length -/

/-- what the calls of Read of `pes.NewPayloadReader(br)` return, also after errors -/
def pesCalls (fuel : Nat) (br : BR) (ns : List Nat) : Res (List (List UInt8 × Option Err)) := (PES.PR.calls fuel ns (PES.PR.new br)).1

/-- start and header of a PES packet with `n` bytes of payload -/
def encHead (id : Nat) (h : PES.Spec.Hdr) (n : Nat) : List Bool := encStart id (3 + h.dataLen + n) ++ PES.Spec.encHdr h

theorem encPacket_head (id : Nat) (h : PES.Spec.Hdr) (d : List UInt8) : encPacket id h d = encHead id h d.length ++ bitsOfBytes d := by
  simp [encPacket, encHead]

theorem bits_inj {a b : List UInt8} (h : bitsOfBytes a = bitsOfBytes b) : a = b := by
  have hl : a.length = b.length := by
    have := congrArg List.length h
    simp only [length_bitsOfBytes] at this
    omega
  have h1 := bytesOfBits_append a []
  have h2 := bytesOfBits_append b []
  rw [h, hl] at h1
  exact h1.symm.trans h2
theorem bits_take (n : Nat) (a : List UInt8) (h : n ≤ a.length) : (bitsOfBytes a).take (8 * n) = bitsOfBytes (a.take n) := by
  have e : bitsOfBytes a = bitsOfBytes (a.take n) ++ bitsOfBytes (a.drop n) := by rw [← bitsOfBytes_append, List.take_append_drop]
  rw [e, List.take_append_of_le_length (by rw [length_bitsOfBytes, List.length_take]; omega),
    List.take_of_length_le (by rw [length_bitsOfBytes, List.length_take]; omega)]
theorem seen_concat (id : Nat) (h : PES.Spec.Hdr) (d : List UInt8) : ∀ (l : List PES.Item) (prev : List UInt8),
    PES.seen prev (l ++ [.media id h d]) = PES.seen prev l ++ [d]
  | [], _ => rfl
  | .media _ _ x :: l, _ => by
    show x :: PES.seen x (l ++ _) = _
    rw [seen_concat id h d l]; rfl
  | .padding _ :: l, prev => by
    show prev :: PES.seen prev (l ++ _) = _
    rw [seen_concat id h d l]; rfl

/-- **C123**, PES packets of known length, over the payload reader.  The transport packets `lost` carry `m` bytes of the payload
`d` of one PES packet, from `i` on.  The reader completes the payload with the first `m` bytes of what follows.  Unless a
start code prefix happens to come next, it reports `ErrStartCodePrefixNotFound` with every further call and delivers nothing
of all that follows. -/
theorem C123_known {k fuel fuel' : Nat} {a lost b : List Pkt} {c : List UInt8} (hB : Bears k (a ++ lost ++ b) c) {l : List PES.Item} {id : Nat}
    {h : PES.Spec.Hdr} {d after : List UInt8} {i m : Nat} (hw : ∀ x ∈ l ++ [PES.Item.media id h d], x.WF)
    (ha : bitsOfBytes (TS.pidBytes k a) = (l.map PES.Item.enc).flatten ++ (encHead id h d.length ++ bitsOfBytes (d.take i)))
    (hm : TS.pidBytes k lost = (d.drop i).take m) (hi : i + m ≤ d.length)
    (hc : bitsOfBytes c = ((l ++ [PES.Item.media id h d]).map PES.Item.enc).flatten ++ bitsOfBytes after)
    (h3 : m + 3 ≤ after.length) (hp : (after.drop m).take 3 ≠ [0, 0, 1])
    (hf : (a ++ b).length < fuel) (hf' : l.length + 1 < fuel') :
    (∃ br, IsSource (prReads fuel k ((a ++ b).map encPkt).flatten) br) ∧
    ∀ br, IsSource (prReads fuel k ((a ++ b).map encPkt).flatten) br → ∀ ns, pesCalls fuel' br ns =
      .ok (deliverFor .startCodePrefixNotFound ((PES.seen [] l).flatten ++ (d.take i ++ d.drop (i + m) ++ after.take m)) ns) := by
  have hpb : ∀ x y, TS.pidBytes k (x ++ y) = TS.pidBytes k x ++ TS.pidBytes k y := by
    intro x y; simp [TS.pidBytes]
  have hb : TS.pidBytes k b = d.drop (i + m) ++ after := by
    have h1 := hB.bytes
    rw [hpb, hpb, hm] at h1
    have h2 := hc
    rw [← h1, bitsOfBytes_append, bitsOfBytes_append, ha] at h2
    simp only [List.map_append, List.map_cons, List.map_nil, List.flatten_append, List.flatten_cons, List.flatten_nil, List.append_nil,
      PES.Item.enc, encPacket_head, List.append_assoc, List.append_cancel_left_eq] at h2
    rw [← bitsOfBytes_append, ← bitsOfBytes_append, ← bitsOfBytes_append] at h2
    have h4 := bits_inj h2
    have h5 : d = d.take i ++ ((d.drop i).take m ++ d.drop (i + m)) := by
      rw [← List.drop_drop, List.take_append_drop, List.take_append_drop]
    have h6 : d.take i ++ ((d.drop i).take m ++ TS.pidBytes k b) = d.take i ++ ((d.drop i).take m ++ (d.drop (i + m) ++ after)) := by
      conv => rhs; rw [← List.append_assoc, ← List.append_assoc, List.append_assoc (d.take i), ← h5]
      simpa using h4
    exact List.append_cancel_left (List.append_cancel_left h6)
  have hB' : Bears k (a ++ b) (TS.pidBytes k a ++ (d.drop (i + m) ++ after)) := by
    refine ⟨fun p hp => hB.legal p ?_, fun p hp => hB.payload p ?_, by rw [hpb, hb]⟩ <;>
    · simp only [List.mem_append] at hp ⊢
      rcases hp with hp | hp
      · exact .inl (.inl hp)
      · exact .inr hp
  refine ⟨⟨_, pr_source hB' hf⟩, fun br hbr ns => ?_⟩
  obtain rfl := hbr.unique (pr_source hB' hf)
  have hlen : (d.take i ++ d.drop (i + m) ++ after.take m).length = d.length := by
    simp only [List.length_append, List.length_take, List.length_drop]; omega
  have e : bitsOfBytes (TS.pidBytes k a ++ (d.drop (i + m) ++ after)) =
      ((l ++ [PES.Item.media id h (d.take i ++ d.drop (i + m) ++ after.take m)]).map PES.Item.enc).flatten ++ bitsOfBytes (after.drop m) := by
    rw [bitsOfBytes_append, ha]
    simp only [List.map_append, List.map_cons, List.map_nil, List.flatten_append, List.flatten_cons, List.flatten_nil, List.append_nil,
      PES.Item.enc, encPacket_head, hlen]
    simp only [List.append_assoc, List.append_cancel_left_eq]
    conv => lhs; rw [← List.take_append_drop m after]
    simp only [bitsOfBytes_append, List.append_assoc]
  rw [e]
  have hj := PES.C122_junk (l ++ [.media id h (d.take i ++ d.drop (i + m) ++ after.take m)]) (by
      intro x hx
      rcases List.mem_append.mp hx with hx | hx
      · exact hw x (List.mem_append_left _ hx)
      · simp only [List.mem_cons, List.not_mem_nil, or_false] at hx
        subst hx
        have := hw (.media id h d) (by simp)
        have this : id < 256 ∧ id ∉ noHeaderIds ∧ h.WF ∧ h.defect = none ∧ 3 + h.dataLen + d.length < 65536 := this
        show id < 256 ∧ id ∉ noHeaderIds ∧ h.WF ∧ h.defect = none ∧ 3 + h.dataLen + List.length _ < 65536
        rw [hlen]; exact this)
    (bitsOfBytes (after.drop m)) (by rw [length_bitsOfBytes, List.length_drop]; omega) (by
      intro he
      apply hp
      have h1 : (bitsOfBytes (after.drop m)).take 24 = bitsOfBytes ((after.drop m).take 3) :=
        bits_take 3 _ (by rw [List.length_drop]; omega)
      rw [h1] at he
      exact bits_inj (he.trans (by decide +kernel))) fuel' (by simpa using hf') ns
  unfold pesCalls
  rw [seen_concat, List.flatten_append, List.flatten_cons, List.flatten_nil, List.append_nil] at hj
  exact hj

/-- **C123**, PES packets of known length: the lost packets carry the header of a PES packet and `i` bytes of its payload.
Everything from there on is lost, unless what follows happens to begin with a start code prefix. -/
theorem C123_known_header {k fuel fuel' : Nat} {a lost b : List Pkt} {c : List UInt8} (hB : Bears k (a ++ lost ++ b) c) {l : List PES.Item}
    {rest : List UInt8} (hw : ∀ x ∈ l, x.WF) (ha : bitsOfBytes (TS.pidBytes k a) = (l.map PES.Item.enc).flatten)
    (hb : TS.pidBytes k b = rest) (h3 : 3 ≤ rest.length) (hp : rest.take 3 ≠ [0, 0, 1])
    (hf : (a ++ b).length < fuel) (hf' : l.length < fuel') :
    (∃ br, IsSource (prReads fuel k ((a ++ b).map encPkt).flatten) br) ∧
    ∀ br, IsSource (prReads fuel k ((a ++ b).map encPkt).flatten) br → ∀ ns, pesCalls fuel' br ns =
      .ok (deliverFor .startCodePrefixNotFound (PES.seen [] l).flatten ns) := by
  have hB' : Bears k (a ++ b) (TS.pidBytes k a ++ rest) := by
    refine ⟨fun p hp => hB.legal p ?_, fun p hp => hB.payload p ?_, by rw [← hb]; simp [TS.pidBytes]⟩ <;>
    · simp only [List.mem_append] at hp ⊢
      rcases hp with hp | hp
      · exact .inl (.inl hp)
      · exact .inr hp
  refine ⟨⟨_, pr_source hB' hf⟩, fun br hbr ns => ?_⟩
  obtain rfl := hbr.unique (pr_source hB' hf)
  rw [bitsOfBytes_append, ha]
  exact PES.C122_junk l hw (bitsOfBytes rest) (by rw [length_bitsOfBytes]; omega) (by
    intro he
    apply hp
    have h1 : (bitsOfBytes rest).take 24 = bitsOfBytes (rest.take 3) := bits_take 3 _ h3
    rw [h1] at he
    exact bits_inj (he.trans (by decide +kernel))) fuel' hf' ns

/-! ### the hypotheses can be met, and the claim is false for packets of known length -/

/-- one transport packet with these bytes -/
def tp (start : Bool) (u : List UInt8) : Pkt := ⟨⟨false, start, false, 0x21, 0, 0⟩, .afPayload (fill (183 - u.length)) u⟩
theorem tp_muxed (start : Bool) {u : List UInt8} (h : u.length ≤ 183) : Muxed 0x21 start u (tp start u, []) := muxed_last (by decide) start h

/-- start and header of a PES packet of unknown length -/
def openHead : List UInt8 := [0, 0, 1, 0xe0, 0, 0, 0x80, 0, 0]
theorem tp_first (es : List UInt8) (h : es.length ≤ 174) : Piece 0x21 (tp true (openHead ++ es)) es where
  legal := (tp_muxed true (u := openHead ++ es) (by simp [openHead]; omega)).legal _ (.head _)
  payload := fun _ => rfl
  first := fun _ => ⟨pkt es, pkt_wf es, rfl, by
    show bitsOfBytes (openHead ++ es) = _
    rw [bitsOfBytes_append]
    have : bitsOfBytes openHead = encUnbounded 0xe0 {} [] := by decide +kernel
    rw [this]
    simp [encUnbounded, pkt]⟩
  other := fun _ h => by cases h
  foreign := fun h => absurd rfl h
theorem tp_other (es : List UInt8) (h : es.length ≤ 183) : Piece 0x21 (tp false es) es where
  legal := (tp_muxed false h).legal _ (.head _)
  payload := fun _ => rfl
  first := fun h => by cases h
  other := fun _ _ => rfl
  foreign := fun h => absurd rfl h

/-- Three units.  Without the second and the third packet the fourth is taken for a part of the first unit; only the bytes
3 and 4 are missing. -/
def lossExample : List (Pkt × List UInt8) := [(tp true (openHead ++ [1, 2]), [1, 2]), (tp false [3], [3]), (tp true (openHead ++ [4]), [4]),
  (tp false [5, 6], [5, 6]), (tp true (openHead ++ [7]), [7])]
def lossReceived : List (Pkt × List UInt8) := [(tp true (openHead ++ [1, 2]), [1, 2]), (tp false [5, 6], [5, 6]), (tp true (openHead ++ [7]), [7])]
example : (∀ x ∈ lossExample, Piece 0x21 x.1 x.2) ∧ lossReceived.Sublist lossExample ∧
    (core 0x21 lossExample).flatMap (·.2) = [1, 2, 3, 4, 5, 6] ∧ (core 0x21 lossReceived).flatMap (·.2) = [1, 2, 5, 6] := by
  refine ⟨?_, ?_, by decide +kernel, by decide +kernel⟩
  · intro x hx
    simp only [lossExample, List.mem_cons, List.not_mem_nil, or_false] at hx
    rcases hx with rfl | rfl | rfl | rfl | rfl
    · exact tp_first _ (by decide)
    · exact tp_other _ (by decide)
    · exact tp_first _ (by decide)
    · exact tp_other _ (by decide)
    · exact tp_first _ (by decide)
  · unfold lossExample lossReceived
    exact ((((List.Sublist.refl _).cons₂ _).cons₂ _).cons _ |>.cons _).cons₂ _

/-! Every stream of pictures can be sent like that. -/

/-- transport packets with these bytes -/
def others : Nat → List UInt8 → List (Pkt × List UInt8)
  | 0, _ => []
  | n + 1, d => (tp false (d.take 183), d.take 183) :: others n (d.drop 183)
theorem others_ok (n : Nat) : ∀ d x, x ∈ others n d → Piece 0x21 x.1 x.2 ∧ TS.starts 0x21 x.1 = false := by
  induction n with
  | zero => intro d x h; cases h
  | succ n ih =>
    intro d x h
    rcases List.mem_cons.mp (show x ∈ (tp false (d.take 183), d.take 183) :: others n (d.drop 183) from h) with h | h
    · rw [h]
      exact ⟨tp_other _ (by rw [List.length_take]; omega), rfl⟩
    · exact ih _ x h
theorem others_bytes : ∀ n d, d.length ≤ 183 * n → (others n d).flatMap (·.2) = d
  | 0, d, h => by
    have : d = [] := List.length_eq_zero_iff.mp (by omega)
    subst this; rfl
  | n + 1, d, h => by
    show d.take 183 ++ (others n (d.drop 183)).flatMap (·.2) = d
    rw [others_bytes n _ (by rw [List.length_drop]; omega), List.take_append_drop]

/-- transport packets with these bits -/
def carriers (b : List Bool) : List (Pkt × List UInt8) := others b.length (bytesOfBits (b.length / 8) b)
theorem carriers_ok {b : List Bool} : ∀ x ∈ carriers b, Piece 0x21 x.1 x.2 ∧ TS.starts 0x21 x.1 = false := others_ok _ _
theorem carriers_bits {b : List Bool} (h : b.length % 8 = 0) : bitsOfBytes ((carriers b).flatMap (·.2)) = b := by
  unfold carriers
  rw [others_bytes _ _ (by rw [length_bytesOfBits]; omega), bitsOfBytes_bytesOfBits _ _ (by omega), List.take_of_length_le (by omega)]

/-- the packets of the segments that are not lost -/
def keepPkts : List Bool → List Video.Spec.Segment → List (Pkt × List UInt8)
  | _, [] => []
  | fs, ⟨none, b⟩ :: ss => carriers b ++ keepPkts fs ss
  | [], ⟨some _, b⟩ :: ss => carriers b ++ keepPkts [] ss
  | f :: fs, ⟨some _, b⟩ :: ss => (if f then carriers b else []) ++ keepPkts fs ss
theorem keepPkts_ok : ∀ (fs : List Bool) (ss : List Video.Spec.Segment), (∀ s ∈ ss, s.bits.length % 8 = 0) →
    (∀ x ∈ keepPkts fs ss, Piece 0x21 x.1 x.2 ∧ TS.starts 0x21 x.1 = false) ∧
    bitsOfBytes ((keepPkts fs ss).flatMap (·.2)) = Video.Spec.keep fs ss ∧ (keepPkts fs ss).Sublist (keepPkts [] ss)
  | _, [], _ => ⟨fun x hx => by simp [keepPkts] at hx, by simp [keepPkts, Video.Spec.keep], by simp [keepPkts]⟩
  | fs, ⟨none, b⟩ :: ss, h => by
    obtain ⟨h1, h2, h3⟩ := keepPkts_ok fs ss fun s hs => h s (.tail _ hs)
    simp only [keepPkts, Video.Spec.keep]
    refine ⟨fun x hx => ?_, ?_, List.Sublist.append (List.Sublist.refl _) h3⟩
    · rcases List.mem_append.mp hx with hx | hx
      · exact carriers_ok x hx
      · exact h1 x hx
    · rw [List.flatMap_append, bitsOfBytes_append, carriers_bits (h _ (.head _)), h2]
  | [], ⟨some _, b⟩ :: ss, h => by
    obtain ⟨h1, h2, h3⟩ := keepPkts_ok [] ss fun s hs => h s (.tail _ hs)
    simp only [keepPkts, Video.Spec.keep]
    refine ⟨fun x hx => ?_, ?_, List.Sublist.refl _⟩
    · rcases List.mem_append.mp hx with hx | hx
      · exact carriers_ok x hx
      · exact h1 x hx
    · rw [List.flatMap_append, bitsOfBytes_append, carriers_bits (h _ (.head _)), h2]
  | f :: fs, ⟨some _, b⟩ :: ss, h => by
    obtain ⟨h1, h2, h3⟩ := keepPkts_ok fs ss fun s hs => h s (.tail _ hs)
    simp only [keepPkts, Video.Spec.keep]
    cases f with
    | true =>
      rw [if_pos rfl, if_pos rfl]
      refine ⟨fun x hx => ?_, ?_, List.Sublist.append (List.Sublist.refl _) h3⟩
      · rcases List.mem_append.mp hx with hx | hx
        · exact carriers_ok x hx
        · exact h1 x hx
      · rw [List.flatMap_append, bitsOfBytes_append, carriers_bits (h _ (.head _)), h2]
    | false =>
      rw [if_neg (by decide), if_neg (by decide)]
      exact ⟨h1, h2, h3.trans (List.sublist_append_right _ _)⟩
theorem keep_all : ∀ ss : List Video.Spec.Segment, Video.Spec.keep [] ss = ss.flatMap (·.bits)
  | [] => rfl
  | ⟨none, b⟩ :: ss => by simp only [Video.Spec.keep, List.flatMap_cons]; rw [keep_all]
  | ⟨some _, b⟩ :: ss => by simp only [Video.Spec.keep, List.flatMap_cons]; rw [keep_all]

/-- a start, packets that are not, a start -/
theorem core_between {a b : Pkt × List UInt8} {m : List (Pkt × List UInt8)} {k : Nat} (ha : TS.starts k a.1 = true) (hb : TS.starts k b.1 = true)
    (hm : ∀ x ∈ m, TS.starts k x.1 = false) : core k (a :: (m ++ [b])) = a :: m := by
  unfold core
  rw [List.dropWhile_cons_of_neg (by rw [ha]; decide)]
  simp only [List.reverse_cons, List.reverse_append, List.reverse_nil, List.nil_append, List.cons_append]
  rw [List.dropWhile_cons_of_neg (by rw [hb]; decide)]
  simp

/-- Aligned segments, with anything aligned before and behind, can be sent in packets such that any choice of slices is lost
by losing packets. -/
theorem packets_exist (segs : List Video.Spec.Segment) (h : ∀ s ∈ segs, s.bits.length % 8 = 0) (before behind : List Bool)
    (hb : before.length % 8 = 0) (hb' : behind.length % 8 = 0) :
    ∃ l, (∀ x ∈ l, Piece 0x21 x.1 x.2) ∧
      bitsOfBytes ((core 0x21 l).flatMap (·.2)) = before ++ (segs.flatMap (·.bits) ++ behind) ∧
      ∀ fs, ∃ l' : List (Pkt × List UInt8), l'.Sublist l ∧
        bitsOfBytes ((core 0x21 l').flatMap (·.2)) = before ++ (Video.Spec.keep fs segs ++ behind) := by
  let s : Pkt × List UInt8 := (tp true (openHead ++ []), [])
  have hs : Piece 0x21 s.1 s.2 := tp_first [] (by decide)
  let pk : List Bool → List (Pkt × List UInt8) := fun fs => s :: ((carriers before ++ (keepPkts fs segs ++ carriers behind)) ++ [s])
  have hpk : ∀ fs, (∀ x ∈ pk fs, Piece 0x21 x.1 x.2) ∧
      bitsOfBytes ((core 0x21 (pk fs)).flatMap (·.2)) = before ++ (Video.Spec.keep fs segs ++ behind) ∧ (pk fs).Sublist (pk []) := by
    intro fs
    obtain ⟨h1, h2, h3⟩ := keepPkts_ok fs segs h
    have hm : ∀ x ∈ carriers before ++ (keepPkts fs segs ++ carriers behind), Piece 0x21 x.1 x.2 ∧ TS.starts 0x21 x.1 = false := by
      intro x hx
      rcases List.mem_append.mp hx with hx | hx
      · exact carriers_ok x hx
      rcases List.mem_append.mp hx with hx | hx
      · exact h1 x hx
      · exact carriers_ok x hx
    refine ⟨fun x hx => ?_, ?_, ?_⟩
    · cases hx with
      | head => exact hs
      | tail _ hx =>
        rcases List.mem_append.mp hx with hx | hx
        · exact (hm x hx).1
        · rw [List.mem_singleton.mp hx]; exact hs
    · show bitsOfBytes ((core 0x21 (s :: (_ ++ [s]))).flatMap (·.2)) = _
      rw [core_between (by rfl) (by rfl) fun x hx => (hm x hx).2]
      show bitsOfBytes ([] ++ (carriers before ++ (keepPkts fs segs ++ carriers behind)).flatMap (·.2)) = _
      rw [List.nil_append, List.flatMap_append, List.flatMap_append, bitsOfBytes_append, bitsOfBytes_append, h2, carriers_bits hb, carriers_bits hb']
    · exact ((List.Sublist.append (List.Sublist.refl _) (List.Sublist.append h3 (List.Sublist.refl _))).append (List.Sublist.refl _)).cons₂ _
  refine ⟨pk [], (hpk []).1, ?_, fun fs => ⟨pk fs, (hpk fs).2.2, (hpk fs).2.1⟩⟩
  rw [(hpk []).2.1, keep_all]

open Video Video.Spec in
/-- A stream that meets all hypotheses of `C123_pictures_partial`: of the two slices of an I picture the second is lost, with
the transport packets it is in. -/
example : ∃ (bits : List Bool) (imgs : List Image) (segs : List Segment) (l l' : List (Pkt × List UInt8)),
    GroupsCode 1 2 0 none none (8 * 1) [ExStream.lossGroup.sent] bits imgs ∧ imgs.length = 2 ∧ bits = segs.flatMap (·.bits) ∧
    (∀ x ∈ l, Piece 0x21 x.1 x.2) ∧ l'.Sublist l ∧ (∀ g ∈ [ExStream.lossGroup], g.OK) ∧
    bitsOfBytes ((core 0x21 l).flatMap (·.2)) = zeros (8 * 1) ++ (bits ++ (bitsOf 32 0x1B7 ++ [])) ∧
    bitsOfBytes ((core 0x21 l').flatMap (·.2)) =
      zeros (8 * 1) ++ (keep (lossFlags [ExStream.lossGroup]) segs ++ (bitsOf 32 0x1B7 ++ [])) ∧
    lossFlags [ExStream.lossGroup] = [true, false, true] := by
  obtain ⟨imgs, h1, h2⟩ := ExStream.closed_code (pos := 8 * 1) (by omega)
  obtain ⟨segs, s1, s2, s3, _⟩ := C123_pictures_partial (kV := 2) (rest := []) (Nat.le_refl _) (by simp) h1 (Nat.lt_succ_self _)
  obtain ⟨l, p1, p2, p3⟩ := packets_exist segs (fun s hs => (s3 s hs).1) (zeros (8 * 1)) (bitsOf 32 0x1B7 ++ []) (by decide) (by decide +kernel)
  obtain ⟨l', q1, q2⟩ := p3 (lossFlags [ExStream.lossGroup])
  refine ⟨_, imgs, segs, l, l', h1, h2, s1, p1, q1, fun g hg => ?_, ?_, q2, rfl⟩
  · rw [List.mem_singleton.1 hg]
    exact ExStream.lossGroup_ok
  · rw [p2]
    exact congrArg (fun b => zeros (8 * 1) ++ (b ++ _)) s1.symm

/-- **C123 is false for PES packets of known length**: of three transport packets the second, with one byte of the first PES
packet, is lost.  The second PES packet is complete and is never returned. -/
theorem C123_false : ∃ (a lost b : List Pkt) (c : List UInt8) (p q : PES.Item), Bears 0x21 (a ++ lost ++ b) c ∧ p.WF ∧ q.WF ∧
    p.payload = [1, 2] ∧ q.payload = [3] ∧ bitsOfBytes c = p.enc ++ q.enc ∧ TS.pidBytes 0x21 lost = [2] ∧ bitsOfBytes (TS.pidBytes 0x21 b) = q.enc ∧
    ∀ br, IsSource (prReads 9 0x21 ((a ++ b).map encPkt).flatten) br → ∀ ns,
      pesCalls 9 br ns = .ok (deliverFor .startCodePrefixNotFound [1, 0] ns) := by
  have hw : ∀ d : List UInt8, d.length ≤ 2 → (PES.Item.media 0xe0 {} d).WF := fun d hd =>
    ⟨by decide, by decide, by decide +kernel, by decide +kernel, by
      show 3 + PES.Spec.Hdr.dataLen {} + d.length < 65536
      have : PES.Spec.Hdr.dataLen {} = 0 := by decide +kernel
      omega⟩
  have hB : Bears 0x21 ([tp false [0, 0, 1, 0xe0, 0, 5, 0x80, 0, 0, 1]] ++ [tp false [2]] ++ [tp false [0, 0, 1, 0xe0, 0, 4, 0x80, 0, 0, 3]])
      [0, 0, 1, 0xe0, 0, 5, 0x80, 0, 0, 1, 2, 0, 0, 1, 0xe0, 0, 4, 0x80, 0, 0, 3] := by
    refine ⟨?_, ?_, by decide +kernel⟩
    · intro p hp
      simp only [List.mem_append, List.mem_cons, List.not_mem_nil, or_false] at hp
      rcases hp with (rfl | rfl) | rfl
      · exact (tp_muxed false (by decide)).legal _ (.head _)
      · exact (tp_muxed false (by decide)).legal _ (.head _)
      · exact (tp_muxed false (by decide)).legal _ (.head _)
    · intro p hp _
      simp only [List.mem_append, List.mem_cons, List.not_mem_nil, or_false] at hp
      rcases hp with (rfl | rfl) | rfl <;> rfl
  refine ⟨_, _, _, _, .media 0xe0 {} [1, 2], .media 0xe0 {} [3], hB, hw _ (by decide), hw _ (by decide), rfl, rfl, by decide +kernel, by decide +kernel,
    by decide +kernel, ?_⟩
  exact (C123_known (l := []) (id := 0xe0) (h := {}) (d := [1, 2]) (after := [0, 0, 1, 0xe0, 0, 4, 0x80, 0, 0, 3]) (i := 1) (m := 1)
    hB (by intro x hx; simp only [List.nil_append, List.mem_cons, List.not_mem_nil, or_false] at hx; subst hx; exact hw _ (by decide))
    (by decide +kernel) (by decide +kernel) (by decide) (by decide +kernel) (by decide) (by decide) (by decide) (by decide)).2
end Mpeg.Pipe
