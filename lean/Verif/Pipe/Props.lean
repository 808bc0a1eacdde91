/-
C61, C76: the readers on top of each other.
-/
import Verif.Pipe.Lemmas
import Verif.Pipe.Mux
import Verif.Video.StreamProps
namespace Mpeg.Pipe
open PES.Spec TS.Spec

/-! ### the contract determines the bit reader -/

theorem segs_unique : ∀ (m : Nat) (ss ss' : List (List UInt8 × Err)), (ss.map fun s => s.1.length + 1).sum ≤ m →
    (∀ N, deliverSegs ss (List.replicate N 1) = deliverSegs ss' (List.replicate N 1)) → ss = ss'
  | m, [], ss', _, h => by
    cases ss' with
    | nil => rfl
    | cons s ss' =>
      have := h 1
      simp only [List.replicate_one, deliverSegs] at this
      split at this <;> cases this
  | m, (c, e) :: rest, [], _, h => by
    have := h 1
    simp only [List.replicate_one, deliverSegs] at this
    split at this <;> cases this
  | 0, (c, e) :: rest, _ :: _, hm, _ => by simp only [List.map_cons, List.sum_cons] at hm; omega
  | m + 1, (c, e) :: rest, (c', e') :: rest', hm, h => by
    simp only [List.map_cons, List.sum_cons] at hm
    have h1 := h 1
    cases c with
    | nil =>
      cases c' with
      | nil =>
        simp [deliverSegs] at h1
        have ht : rest = rest' := segs_unique m rest rest' (by simp only [List.length_nil] at hm; omega) fun N => by
          have := h (N + 1)
          simp only [List.replicate_succ, deliverSegs, List.length_nil, Nat.not_succ_le_zero, Nat.le_zero_eq, Nat.one_ne_zero,
            if_false, List.cons.injEq] at this
          exact this.2
        rw [h1, ht]
      | cons b c' => simp [deliverSegs] at h1
    | cons b c =>
      cases c' with
      | nil => simp [deliverSegs] at h1
      | cons b' c' =>
        simp [deliverSegs] at h1
        have ht : (c, e) :: rest = (c', e') :: rest' :=
          segs_unique m _ _ (by simp only [List.length_cons, List.map_cons, List.sum_cons] at hm ⊢; omega) fun N => by
            have := h (N + 1)
            simp only [List.replicate_succ, deliverSegs, List.length_cons, Nat.le_add_left, if_true, List.drop_succ_cons,
              List.drop_zero, List.cons.injEq] at this
            exact this.2
        cases ht
        rw [h1]

/-- There is at most one bit reader on top of a reader. -/
theorem IsSource.unique {reads : List Nat → Res (List (List UInt8 × Option Err))} {b b' : BR} (h : IsSource reads b)
    (h' : IsSource reads b') : b = b' := by
  obtain ⟨c, e, rest, rfl, h⟩ := h
  obtain ⟨c', e', rest', rfl, h'⟩ := h'
  have := segs_unique _ ((c, e) :: rest) ((c', e') :: rest') (Nat.le_refl _) fun N => by
    have h1 : ∀ n ∈ List.replicate N 1, 0 < n := by intro n hn; rw [(List.mem_replicate.mp hn).2]; decide
    exact Res.ok.inj ((h _ h1).symm.trans (h' _ h1))
  cases this
  rfl

/-! ### the stack -/

/-- The transport stream `pre`, `gs` (packets of any PIDs; a group starts with the start of a unit on PID `k`) carries the
units `us` of PES packets on PID `k`, and one last unit of any content. -/
structure Carries (k : Nat) (pre : List Pkt) (gs : List (Pkt × List Pkt)) (us : List PesUnit) : Prop where
  legal : ∀ p ∈ pre ++ (gs.map fun g => g.1 :: g.2).flatten, p.WF ∧ p.body.Plain
  payload : ∀ p ∈ (gs.map fun g => g.1 :: g.2).flatten, p.hdr.pid = k → p.body.hasPayload = true
  before : ∀ p ∈ pre, TS.starts k p = false
  groups : ∀ g ∈ gs, TS.starts k g.1 = true ∧ ∀ p ∈ g.2, TS.starts k p = false
  units : gs.dropLast.map (fun g => bitsOfBytes (TS.pidBytes k (g.1 :: g.2))) = us.map PesUnit.enc
  wf : ∀ u ∈ us, u.WF

/-- the bits of the transport stream -/
def tsBits (pre : List Pkt) (gs : List (Pkt × List Pkt)) : List Bool :=
  ((pre ++ (gs.map fun g => g.1 :: g.2).flatten).map encPkt).flatten

/-- Every list of well-formed units is carried by some transport stream. -/
theorem exists_carries (k : Nat) (hk : k < 2 ^ 13) (us : List PesUnit) (h : ∀ u ∈ us, u.WF) :
    ∃ pre gs, Carries k pre gs us := by
  have hb : ∃ bs : List (List UInt8), bs.map bitsOfBytes = us.map PesUnit.enc := by
    induction us with
    | nil => exact ⟨[], rfl⟩
    | cons u us ih =>
      obtain ⟨bs, hbs⟩ := ih fun v hv => h v (List.mem_cons_of_mem _ hv)
      obtain ⟨b, hb⟩ := bytes_of (enc_aligned u (h u (List.mem_cons_self ..)))
      exact ⟨b :: bs, by simp [hb, hbs]⟩
  obtain ⟨bs, hbs⟩ := hb
  have hm : ∀ b : List UInt8, Muxed k true b (mux k b.length true b) := fun b => muxed hk b.length true b (by omega)
  have hmem : ∀ p, p ∈ (((bs ++ [[]]).map fun b : List UInt8 => mux k b.length true b).map fun g : Pkt × List Pkt => g.1 :: g.2).flatten →
      ∃ b, p ∈ (mux k b.length true b).1 :: (mux k b.length true b).2 := by
    intro p hp
    obtain ⟨l, hl, hp⟩ := List.mem_flatten.mp hp
    obtain ⟨g, hg, rfl⟩ := List.mem_map.mp hl
    obtain ⟨b, _, rfl⟩ := List.mem_map.mp hg
    exact ⟨b, hp⟩
  refine ⟨[], (bs ++ [[]]).map fun b : List UInt8 => mux k b.length true b, ⟨?_, ?_, fun p hp => (by cases hp), ?_, ?_, h⟩⟩
  · intro p hp
    obtain ⟨b, hb⟩ := hmem p hp
    exact (hm b).legal p hb
  · intro p hp _
    obtain ⟨b, hb⟩ := hmem p hp
    exact (hm b).payload p hb
  · intro g hg
    obtain ⟨b, _, rfl⟩ := List.mem_map.mp hg
    exact ⟨(hm b).first, (hm b).others⟩
  · rw [← hbs, List.map_append, List.map_cons, List.map_nil, List.dropLast_concat, List.map_map]
    refine List.map_congr_left fun b _ => ?_
    show bitsOfBytes (TS.pidBytes k _) = _
    rw [(hm b).bytes]

/-- what the Reads of `ts.NewPayloadUnitReader(br, ts.IsPID(k))` return -/
def puReads (fuel k : Nat) (bits : List Bool) (ns : List Nat) : Res (List (List UInt8 × Option Err)) :=
  (TS.PU.reads (TS.isPID k) fuel ns (TS.PU.new (BR.ofBits bits))).1

/-- what the Reads of `pes.NewPayloadReader(br)` return -/
def pesReads (fuel : Nat) (br : BR) (ns : List Nat) : Res (List (List UInt8 × Option Err)) :=
  (PES.PR.reads fuel ns (PES.PR.new br)).1

/-- The pieces as segments: `EOP` between the pieces, `io.EOF` at the end. -/
def pieceSegs : List (List UInt8) → List (List UInt8 × Err)
  | [] => []
  | [c] => [(c, .eof)]
  | c :: c' :: cs => (c, .eop) :: pieceSegs (c' :: cs)

theorem segs_pieces : ∀ (c : List UInt8) (cs : List (List UInt8)), segs .eof c cs = pieceSegs (c :: cs)
  | _, [] => rfl
  | c, c' :: cs => by rw [segs, pieceSegs, segs_pieces c' cs]

theorem pieces_ne (us : List PesUnit) : pieces us ≠ [] := by
  cases us with
  | nil => exact List.cons_ne_nil _ _
  | cons u us =>
    unfold pieces
    split <;> exact List.cons_ne_nil _ _

theorem bits_map_inj {α : Type} {β : Type} (f : α → List UInt8) (enc : β → List Bool) :
    ∀ {gs : List α} {us : List β}, gs.map (fun g => bitsOfBytes (f g)) = us.map enc →
      (gs.map fun g => (bitsOfBytes (f g), Err.eop)) = us.map fun u => (enc u, Err.eop)
  | [], [], _ => rfl
  | [], _ :: _, h => by cases h
  | _ :: _, [], h => by cases h
  | g :: gs, u :: us, h => by
    simp only [List.map_cons, List.cons.injEq] at h ⊢
    exact ⟨by rw [h.1], bits_map_inj f enc h.2⟩

theorem feed_eq (e : Err) : ∀ us : List PesUnit,
    ((feed e us).1, (feed e us).2.1) :: (feed e us).2.2 = us.map (fun u => (u.enc, Err.eop)) ++ [([], e)]
  | [] => rfl
  | u :: us => by
    show (u.enc, Err.eop) :: _ = _
    rw [List.map_cons, List.cons_append, ← feed_eq e us]
    rfl

/-- the bit reader under the PES reader -/
theorem pu_source {k fuel : Nat} {pre : List Pkt} {gs : List (Pkt × List Pkt)} {us : List PesUnit} (h : Carries k pre gs us)
    (hf : (pre ++ (gs.map fun g => g.1 :: g.2).flatten).length < fuel) :
    IsSource (puReads fuel k (tsBits pre gs)) ⟨(feed .eof us).1, 0, (feed .eof us).2.1, (feed .eof us).2.2⟩ := by
  obtain ⟨s, ss, hs⟩ : ∃ s ss, (gs.dropLast.map fun g => (TS.pidBytes k (g.1 :: g.2), Err.eop)) ++ [([], Err.eof)] = s :: ss := by
    cases hc : (gs.dropLast.map fun g => (TS.pidBytes k (g.1 :: g.2), Err.eop)) ++ [([], Err.eof)] with
    | nil => simp at hc
    | cons s ss => exact ⟨s, ss, rfl⟩
  have hb : (s :: ss).map (fun s => (bitsOfBytes s.1, s.2)) =
      ((feed .eof us).1, (feed .eof us).2.1) :: (feed .eof us).2.2 := by
    rw [← hs, feed_eq, List.map_append, List.map_map]
    congr 1
    rw [← bits_map_inj _ _ h.units]
    rfl
  simp only [List.map_cons, List.cons.injEq, Prod.mk.injEq] at hb
  refine ⟨s.1, s.2, ss, ?_, ?_⟩
  · rw [hb.1.1, hb.1.2, hb.2]
  · intro ns hns
    obtain ⟨r', hr⟩ := TS.C14_pid_stream_partial k pre gs h.legal h.payload h.before h.groups ns (fuel := fuel) hf
    unfold puReads tsBits
    rw [hr, (units_segs .eof ns _ hns).1, List.map_map]
    have : (fun u => (u, Err.eop)) ∘ (fun g : Pkt × List Pkt => TS.pidBytes k (g.1 :: g.2)) =
      fun g => (TS.pidBytes k (g.1 :: g.2), Err.eop) := rfl
    rw [this, hs]

/-- **C61** (partial): the payload reader of PES on top of the payload unit reader of the transport stream, for every
schedule of Reads of the consumer and whatever Reads the bit reader in between does.  The bytes delivered are the payloads
of the PES packets of all units but the last, in order, without gap or repetition; `EOP` is reported where a unit ends
with a packet of known length, `io.EOF` at the end.

Partial: the last unit is lost (`C14_false`), `EOP` shows between units (`C61_eop_false`), no padding packets
(`C26_false`). -/
theorem C61_partial {k fuel fuel' : Nat} {pre : List Pkt} {gs : List (Pkt × List Pkt)} {us : List PesUnit}
    (h : Carries k pre gs us) (hf : (pre ++ (gs.map fun g => g.1 :: g.2).flatten).length < fuel) (hf' : count us < fuel') :
    (∃ br, IsSource (puReads fuel k (tsBits pre gs)) br) ∧
    ∀ br, IsSource (puReads fuel k (tsBits pre gs)) br →
      (∀ ns, pesReads fuel' br ns = .ok (deliverSegs (pieceSegs (pieces us)) ns)) ∧
      (pieces us).flatten = us.flatMap (·.payload) := by
  refine ⟨⟨_, pu_source h hf⟩, fun br hbr => ⟨fun ns => ?_, pieces_flatten us⟩⟩
  obtain rfl := hbr.unique (pu_source h hf)
  obtain ⟨pss, h1, h2, h3⟩ := run_units .eof (by decide) us {} 0 h.wf
  cases pss with
  | nil => exact absurd h2.symm (pieces_ne us)
  | cons ps pss =>
    obtain ⟨r', hr⟩ := PES.C26_every_source _ ps pss .eof h1 ns fuel' (by
      rw [← h3] at hf'
      simpa [PES.total] using hf')
    unfold pesReads
    rw [hr, parts_segs, segs_pieces, ← h2, List.map_cons]

/-- **C61** for units that end with a packet of unknown length (as video is carried in transport streams): a consumer
sees the concatenation of the payloads and nothing else. -/
theorem C61_open_partial {k fuel fuel' : Nat} {pre : List Pkt} {gs : List (Pkt × List Pkt)} {us : List PesUnit}
    (h : Carries k pre gs us) (ho : ∀ u ∈ us, u.last.isSome)
    (hf : (pre ++ (gs.map fun g => g.1 :: g.2).flatten).length < fuel) (hf' : count us < fuel') :
    ∀ br, IsSource (puReads fuel k (tsBits pre gs)) br →
      ∀ ns, pesReads fuel' br ns = .ok (TS.Spec.deliver (us.flatMap (·.payload)) .eof ns) := by
  intro br hbr ns
  rw [((C61_partial h hf hf').2 br hbr).1, pieces_open us ho]
  have := parts_segs .eof ns (us.flatMap (·.payload)) []
  rw [segs] at this
  rw [pieceSegs, ← this, PES.deliverParts_nil]

/-- a packet of stream 0xe0 without time stamps -/
def pkt (d : List UInt8) : PesPkt := ⟨0xe0, {}, d⟩

theorem pkt_wf (d : List UInt8) : (pkt d).WF :=
  ⟨(by decide : 0xe0 < 256), (by decide : 0xe0 ∉ noHeaderIds), (by decide : ({} : PES.Spec.Hdr).WF),
    (by decide : ({} : PES.Spec.Hdr).defect = none)⟩

/-- one packet of unknown length -/
def openUnit (d : List UInt8) : PesUnit := ⟨[], some (pkt d)⟩
/-- one packet of known length -/
def closedUnit (d : List UInt8) : PesUnit := ⟨[pkt d], none⟩

theorem openUnit_wf (d : List UInt8) : (openUnit d).WF :=
  ⟨fun p hp => (by cases hp), fun p hp => by cases hp; exact pkt_wf d⟩

theorem closedUnit_wf (d : List UInt8) (h : d.length < 65533) : (closedUnit d).WF := by
  refine ⟨fun p hp => ?_, fun p hp => by cases hp⟩
  simp only [closedUnit, List.mem_cons, List.not_mem_nil, or_false] at hp
  subst hp
  refine ⟨pkt_wf d, ?_⟩
  show 3 + 0 + d.length < 65536
  omega

/-- the hypotheses can be met, by units of both kinds -/
example : ∃ pre gs, Carries 0x21 pre gs [openUnit [1, 2], closedUnit [3], openUnit [4]] ∧
    pieces [openUnit [1, 2], closedUnit [3], openUnit [4]] = [[1, 2, 3], [4]] := by
  obtain ⟨pre, gs, h⟩ := exists_carries 0x21 (by decide) [openUnit [1, 2], closedUnit [3], openUnit [4]] (by
    intro u hu
    simp only [List.mem_cons, List.not_mem_nil, or_false] at hu
    rcases hu with rfl | rfl | rfl
    · exact openUnit_wf _
    · exact closedUnit_wf _ (by decide)
    · exact openUnit_wf _)
  exact ⟨pre, gs, h, rfl⟩

/-- **C61** as stated is false, even if the last unit is not counted: between two packets of known length in units of their
own, a Read that asks for the bytes of both returns only those of the first, with the error `EOP`. -/
theorem C61_eop_false : ∃ k pre gs us br, Carries k pre gs us ∧ us.flatMap (·.payload) = [1, 2] ∧
    IsSource (puReads ((pre ++ (gs.map fun g => g.1 :: g.2).flatten).length + 1) k (tsBits pre gs)) br ∧
    pesReads 9 br [2] = .ok [([1], some .eop)] := by
  obtain ⟨pre, gs, h⟩ := exists_carries 0x21 (by decide) [closedUnit [1], closedUnit [2]] (by
    intro u hu
    simp only [List.mem_cons, List.not_mem_nil, or_false] at hu
    rcases hu with rfl | rfl <;> exact closedUnit_wf _ (by decide))
  obtain ⟨⟨br, hbr⟩, h2⟩ := C61_partial (fuel' := 9) h (Nat.lt_succ_self _) (by decide)
  exact ⟨_, pre, gs, _, br, h, rfl, hbr, by rw [(h2 br hbr).1]; rfl⟩

/-- **C76** (partial): the whole chain.  A transport stream carries on PID `k`, among packets of other PIDs, units of PES
packets, each unit ending with a packet of unknown length; the concatenation of their payloads is a video stream as in
C75.  Then consecutive calls of `Next` of the video decoder on top of the PES reader on top of the payload unit reader
return exactly the pictures of the reference decoder in display order, and then the end of the stream.

Partial: as C61 and C75. -/
theorem C76_partial {k fuel fuel' fuelV kV : Nat} {pre : List Pkt} {gs : List (Pkt × List Pkt)} {us : List PesUnit}
    (h : Carries k pre gs us) (ho : ∀ u ∈ us, u.last.isSome)
    (hf : (pre ++ (gs.map fun g => g.1 :: g.2).flatten).length < fuel) (hf' : count us < fuel')
    {W H lead : Nat} {vs : List Video.Spec.CGroup} {bits rest : List Bool} {imgs : List Video.Spec.Image}
    (hs : bitsOfBytes (us.flatMap (·.payload)) =
      List.replicate (8 * lead) false ++ (bits ++ (bitsOf 32 0x1B7 ++ rest)))
    (hv : Video.Spec.GroupsCode W H 0 none none (8 * lead) vs bits imgs) (hvs : vs ≠ []) (hk : 2 ≤ kV)
    (hfv : bits.length < fuelV) :
    (∃ br, IsSource (puReads fuel k (tsBits pre gs)) br ∧ ∃ br', IsSource (pesReads fuel' br) br') ∧
    ∀ br br', IsSource (puReads fuel k (tsBits pre gs)) br → IsSource (pesReads fuel' br) br' →
      ∃ frames t, Video.nexts fuelV kV imgs.length (Video.VS.new br') = (.ok frames, t) ∧ frames.length = imgs.length ∧
        (∀ i (h1 : i < frames.length) (h2 : i < imgs.length), Video.Spec.Shows W H frames[i] imgs[i]) ∧
        (Video.VS.next fuelV kV t).1 = .err .eos := by
  have key : ∀ br, IsSource (puReads fuel k (tsBits pre gs)) br →
      IsSource (pesReads fuel' br) ⟨bitsOfBytes (us.flatMap (·.payload)), 0, .eof, []⟩ := by
    intro br hbr
    refine ⟨_, .eof, [], rfl, fun ns _ => ?_⟩
    rw [((C61_partial h hf hf').2 br hbr).1, pieces_open us ho]
    rfl
  refine ⟨⟨_, pu_source h hf, _, key _ (pu_source h hf)⟩, fun br br' h1 h2 => ?_⟩
  obtain rfl := h2.unique (key br h1)
  obtain ⟨frames, t, g1, g2, g3, g4, _⟩ := Video.C75_partial (stop := .eof) (later := []) (rest := rest) hk hvs hv hfv
  refine ⟨frames, t, ?_, g2, g3, g4⟩
  rw [hs]
  exact g1

/-- the hypotheses can be met: a stream of three pictures (C75), cut anywhere into two packets -/
example (n : Nat) : ∃ (pre : List Pkt) (gs : List (Pkt × List Pkt)) (us : List PesUnit) (vs : List Video.Spec.CGroup)
    (bits rest : List Bool) (imgs : List Video.Spec.Image), Carries 0x21 pre gs us ∧ (∀ u ∈ us, u.last.isSome) ∧
    us.length = 2 ∧ bitsOfBytes (us.flatMap (·.payload)) =
      List.replicate (8 * 1) false ++ (bits ++ (bitsOf 32 0x1B7 ++ rest)) ∧
    Video.Spec.GroupsCode 1 1 0 none none (8 * 1) vs bits imgs ∧ vs ≠ [] ∧ imgs.length = 3 := by
  obtain ⟨bits, imgs, h, h3⟩ := Video.ExStream.stream
  let pad := 8 - (bits.length % 8)
  obtain ⟨c, hc⟩ := bytes_of (l := List.replicate (8 * 1) false ++ (bits ++ (bitsOf 32 0x1B7 ++ List.replicate pad false))) (by
    simp only [List.length_append, List.length_replicate, length_bitsOf, pad]; omega)
  obtain ⟨pre, gs, hcar⟩ := exists_carries 0x21 (by decide) [openUnit (c.take n), openUnit (c.drop n)] (by
    intro u hu
    simp only [List.mem_cons, List.not_mem_nil, or_false] at hu
    rcases hu with rfl | rfl <;> exact openUnit_wf _)
  refine ⟨pre, gs, _, _, bits, List.replicate pad false, imgs, hcar, ?_, rfl, ?_, h, List.cons_ne_nil _ _, h3⟩
  · intro u hu
    simp only [List.mem_cons, List.not_mem_nil, or_false] at hu
    rcases hu with rfl | rfl <;> rfl
  · simp [PesUnit.payload, openUnit, pkt, List.flatMap_cons, hc]

/-- the outcome of the call of `Next` is the error `EOP` -/
def failsEop (r : Res Video.Frame × Video.VS) : Bool :=
  match r.1 with
  | .err .eop => true
  | _ => false

/-- an I picture of one macroblock -/
def onePicture : List Bool :=
  let b := Video.ExStream.byte
  b (Video.Spec.encSeq (Video.ExStream.seqH 16)) ++ (b (Video.Spec.encSeqExt (Video.ExStream.seqE 1)) ++
    (b (Video.Spec.encGOP Video.ExStream.gopH) ++ (b (Video.Spec.encPic ⟨0, .other 1, 0, []⟩) ++
    (b (Video.Spec.encPicExt Video.ExStream.picE) ++ (b ((Video.ExStream.sl 0 Video.ExStream.mbI).head (Video.ExStream.envI 16 1) ++
      (Video.ExStream.codeI 16 1 0 ⟨none, none⟩ Video.Spec.blank).bits) ++ bitsOf 32 0x1B7)))))

/-- a frame is returned -/
def succeeds (r : Res Video.Frame × Video.VS) : Bool :=
  match r.1 with
  | .ok _ => true
  | _ => false

/-- **C76** is false for packets of known length in units of their own: the video decoder stops with the error `EOP` of the
layers below at the end of the first packet, although the payloads make up a stream that it decodes if it gets it in one
piece. -/
theorem C76_eop_false : ∃ k pre gs us br br', Carries k pre gs us ∧
    IsSource (puReads ((pre ++ (gs.map fun g => g.1 :: g.2).flatten).length + 1) k (tsBits pre gs)) br ∧
    IsSource (pesReads 9 br) br' ∧ bitsOfBytes (us.flatMap (·.payload)) = onePicture ∧
    failsEop (Video.VS.next 1000 2 (Video.VS.new br')) = true ∧
    succeeds (Video.VS.next 1000 2 (Video.VS.new ⟨onePicture, 0, .eof, []⟩)) = true := by
  obtain ⟨c, hc, hlen, hfail⟩ : ∃ c : List UInt8, bitsOfBytes c = onePicture ∧ c.length < 65533 ∧
      failsEop (Video.VS.next 1000 2 (Video.VS.new
        ⟨bitsOfBytes (c.take 30), 0, .eop, [(bitsOfBytes (c.drop 30), .eop), ([], .eof)]⟩)) = true :=
    ⟨bytesOfBits (onePicture.length / 8) onePicture, by decide +kernel, by decide +kernel, by decide +kernel⟩
  obtain ⟨pre, gs, h⟩ := exists_carries 0x21 (by decide) [closedUnit (c.take 30), closedUnit (c.drop 30)] (by
    intro u hu
    simp only [List.mem_cons, List.not_mem_nil, or_false] at hu
    rcases hu with rfl | rfl
    · exact closedUnit_wf _ (by rw [List.length_take]; omega)
    · exact closedUnit_wf _ (by rw [List.length_drop]; omega))
  obtain ⟨⟨br, hbr⟩, h2⟩ := C61_partial (fuel' := 9) h (Nat.lt_succ_self _) (by simp [count, closedUnit])
  have hp : pieces [closedUnit (c.take 30), closedUnit (c.drop 30)] = [c.take 30, c.drop 30, []] := by
    simp [pieces, closedUnit, PesUnit.payload, pkt]
  refine ⟨_, pre, gs, _, br, ⟨bitsOfBytes (c.take 30), 0, .eop, [(bitsOfBytes (c.drop 30), .eop), ([], .eof)]⟩, h, hbr,
    ⟨_, _, [(c.drop 30, .eop), ([], .eof)], rfl, fun ns _ => ?_⟩, ?_, hfail, by decide +kernel⟩
  · rw [(h2 br hbr).1, hp]; rfl
  · rw [← hc]
    simp [PesUnit.payload, closedUnit, pkt, List.flatMap_cons]

end Mpeg.Pipe
