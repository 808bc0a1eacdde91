/-
What a slice with arbitrary contents leaves alone, and pictures with damaged slices.
-/
import Verif.Video.DamageSpec
import Verif.Video.SliceLossLemmas
import Verif.Video.SynLemmas3
import Verif.Video.ShapeLemmas
namespace Mpeg.Video
open Spec Go

/-! ### a slice writes at and below its own row only -/

/-- the same size, and the same samples before index `n` -/
def Plane.From (n : Nat) (p q : Plane) : Prop := q.len = p.len ∧ ∀ i < n, q.data i = p.data i

theorem Plane.From.refl (n : Nat) (p : Plane) : p.From n p := ⟨rfl, fun _ _ => rfl⟩
theorem Plane.From.trans {n : Nat} {p q r : Plane} (h : p.From n q) (g : q.From n r) : p.From n r :=
  ⟨g.1.trans h.1, fun i hi => (g.2 i hi).trans (h.2 i hi)⟩

theorem write_from {p q : Plane} {m off n : Nat} {src : Nat → Nat} (hm : m ≤ off) (h : p.write off n src = some q) :
    p.From m q := by
  unfold Plane.write at h
  split at h
  · cases h
    refine ⟨rfl, fun i hi => ?_⟩
    show (if _ then _ else _) = _
    rw [if_neg (by omega)]
  · cases h

theorem writeRows_from {base stride m : Nat} {cb : Nat → Nat} (hm : m ≤ base) : ∀ (k y : Nat) {p q : Plane},
    writeRows base stride cb k y p = some q → p.From m q
  | 0, y, p, q, h => by cases h; exact .refl _ _
  | k + 1, y, p, q, h => by
    unfold writeRows at h
    split at h
    · cases h
    · rename_i h1
      exact (write_from (by omega) h1).trans (writeRows_from hm k _ h)

theorem copyRows_from {dbase dstride sbase sstride x w m : Nat} {s : Plane} (hm : m ≤ dbase) :
    ∀ (k v : Nat) {p q : Plane}, copyRows dbase dstride sbase sstride x w s k v p = some q → p.From m q
  | 0, v, p, q, h => by cases h; exact .refl _ _
  | k + 1, v, p, q, h => by
    unfold copyRows at h
    split at h
    · cases h
    · rename_i h1
      unfold Plane.copyFrom at h1
      split at h1
      · exact (write_from (by omega) h1).trans (copyRows_from hm k _ h)
      · cases h1

/-- the same sizes and strides, and the same samples above macroblock row `row` -/
structure Frame.Below (row : Nat) (g f : Frame) : Prop where
  yStride : f.yStride = g.yStride
  cStride : f.cStride = g.cStride
  y : g.y.From (16 * row * g.yStride) f.y
  cb : g.cb.From (8 * row * g.cStride) f.cb
  cr : g.cr.From (8 * row * g.cStride) f.cr

theorem Frame.Below.refl (row : Nat) (g : Frame) : g.Below row g := ⟨rfl, rfl, .refl _ _, .refl _ _, .refl _ _⟩

theorem updateFrame_below {g f f' : Frame} {i addr row : Nat} {il : Bool} {cb : Nat → Nat}
    (hf : g.Below row f) (h : updateFrame i addr row il f cb = some f') : g.Below row f' := by
  obtain ⟨h1, h2, h3, h4, h5⟩ := hf
  unfold updateFrame at h
  split at h
  · dsimp only at h
    rw [Option.map_eq_some_iff] at h
    obtain ⟨p, hp, rfl⟩ := h
    exact ⟨h1, h2, h3.trans (writeRows_from (by rw [h1]; omega) _ _ hp), h4, h5⟩
  · split at h
    · rw [Option.map_eq_some_iff] at h
      obtain ⟨p, hp, rfl⟩ := h
      exact ⟨h1, h2, h3, h4.trans (writeRows_from (by rw [h2]; omega) _ _ hp), h5⟩
    · split at h
      · rw [Option.map_eq_some_iff] at h
        obtain ⟨p, hp, rfl⟩ := h
        exact ⟨h1, h2, h3, h4, h5.trans (writeRows_from (by rw [h2]; omega) _ _ hp)⟩
      · cases h

theorem pframeCopy_below {g f f' : Frame} {row col n : Nat} {src : Option Frame} (hf : g.Below row f)
    (h : pframeCopy row col n f src = some f') : g.Below row f' := by
  obtain ⟨h1, h2, h3, h4, h5⟩ := hf
  unfold pframeCopy at h
  cases src with
  | none => cases h
  | some s =>
    dsimp only at h
    split at h
    · rename_i y cb cr e1 e2 e3
      cases h
      exact ⟨h1, h2, h3.trans (copyRows_from (by rw [h1]; omega) _ _ e1), h4.trans (copyRows_from (by rw [h2]; omega) _ _ e2),
        h5.trans (copyRows_from (by rw [h2]; omega) _ _ e3)⟩
    · cases h

theorem finishBlock_below {g f f' : Frame} {e : PicEnv} {d : MVD} {b : Block} {i addr row : Nat} {il : Bool}
    (hf : g.Below row f) (h : finishBlock e d b i addr row il f = some f') : g.Below row f' := by
  unfold finishBlock at h
  split at h
  · cases h
  · exact updateFrame_below hf h

theorem bcopyBlocks_below {g : Frame} {e : PicEnv} {d : MVD} {addr row : Nat} (k : Nat) : ∀ {f f' : Frame},
    g.Below row f → bcopyBlocks e d addr row k f = some f' → g.Below row f' := by
  induction k with
  | zero => intro f f' hf h; have h : some f = some f' := h; rw [← Option.some.inj h]; exact hf
  | succ k ih =>
    intro f f' hf h
    cases h1 : finishBlock e d Block.zero (5 - k) addr row false f with
    | none => rw [bcopyBlocks_none h1] at h; exact absurd h.symm (Option.some_ne_none _)
    | some f1 => rw [bcopyBlocks_step h1] at h; exact ih (finishBlock_below hf h1) h

theorem bframeCopy_below {g : Frame} {e : PicEnv} {d : MVD} {row : Nat} (n : Nat) : ∀ (addr : Nat) {f f' : Frame},
    g.Below row f → bframeCopy e d row addr n f = some f' → g.Below row f' := by
  induction n with
  | zero => intro addr f f' hf h; have h : some f = some f' := h; rw [← Option.some.inj h]; exact hf
  | succ n ih =>
    intro addr f f' hf h
    cases h1 : bcopyBlocks e d addr row 6 f with
    | none => rw [bframeCopy_none h1] at h; exact absurd h.symm (Option.some_ne_none _)
    | some f1 => rw [bframeCopy_step h1] at h; exact ih _ (bcopyBlocks_below _ hf h1) h

section
variable {e : PicEnv} {row : Nat} {g : Frame}

theorem bw_mbFinish (a : Nat) (m : Mode) (cbp : Nat) : Keeps (OnFrame (g.Below row)) (mbFinish e row a m cbp) := by
  unfold mbFinish
  exact keeps_bind (fr_mbBlocks (fun _ _ _ _ _ _ => finishBlock_below) _ _ _ _ _ _) fun _ => keeps_pure _

theorem bw_mbPattern (a : Nat) (m : Mode) : Keeps (OnFrame (g.Below row)) (mbPattern e row a m) := by
  unfold mbPattern
  refine keeps_ite (fun s h => ?_) (bw_mbFinish _ _ _)
  have h' := fr_lift (P := g.Below row) (codedBlockPattern e.se.chromaFormat) s h
  unfold mbCoded
  rcases hr : MB.lift (codedBlockPattern e.se.chromaFormat) s with ⟨r, s'⟩
  rw [hr] at h'
  cases r with
  | ok cbp => exact bw_mbFinish _ _ _ _ h'
  | err x => exact h'
  | panic => exact h'
  | hang => exact h'

theorem bw_macroblock (addr : Option Nat) : Keeps (OnFrame (g.Below row)) (macroblock e row addr) := by
  unfold macroblock
  exact keeps_bind (fr_lift _) fun incr => keeps_bind (fr_copySkipped (fun _ _ _ _ _ => pframeCopy_below)
      (fun _ _ _ _ _ _ => bframeCopy_below _ _)) fun _ =>
    keeps_bind (keeps_modify fun _ h => h) fun _ => keeps_bind (fr_lift _) fun m =>
    keeps_bind (keeps_modify fun _ h => h) fun _ => keeps_bind (fr_mbVectors _ _) fun _ => bw_mbPattern _ _

theorem bw_mbLoop : ∀ fuel addr, Keeps (OnFrame (g.Below row)) (mbLoop e row fuel addr)
  | 0, _ => keeps_hang
  | fuel + 1, addr => keeps_bind (bw_macroblock addr) fun _ => keeps_bind (fr_lift _) fun _ =>
      keeps_ite (keeps_pure _) (bw_mbLoop fuel _)

end

/-- A slice with any contents changes nothing above its own macroblock row. -/
theorem slice_below {e : PicEnv} {row : Nat} (hrow : row < 175) {s : MB} {t : List Bool}
    (hb : s.br.bits = bitsOf 32 (0x101 + row) ++ t) : s.frame.Below row (slice e s).2.frame := by
  have hr : MB.lift (BR.read 32) s = (.ok (0x101 + row), { s with br := ⟨t, s.br.pos + 32, s.br.stop, s.br.later⟩ }) := by
    obtain ⟨⟨b, p, st, la⟩, d1, d2, d3, d4⟩ := s
    dsimp only at hb
    subst hb
    simp only [MB.lift, BR.read_bitsOf]
    rw [Nat.mod_eq_of_lt (by omega)]
  have hrw : (0x101 + row) % 256 - 1 = row := by omega
  unfold slice
  rw [Go.bind_ok hr, hrw]
  have hk : Keeps (OnFrame (s.frame.Below row)) (do
      Go.check (isSlice (0x101 + row)) .unexpectedStartCode
      let s ← Go.get
      if s.frame.y.len < 16 * row * s.frame.yStride ∨ s.frame.cb.len < 8 * row * s.frame.cStride ∨
          s.frame.cr.len < 8 * row * s.frame.cStride then Go.panic
      else do
        let qsc ← MB.lift (sliceHeader e.sh.verticalSizeValue)
        Go.modify fun s => { s with dcp := DcPred.reset e.pce.intraDCPrecision, mvd := MVD.init, qsc := qsc }
        mbLoopAll e row
        MB.lift nextStartCode : Go MB Unit) := by
    refine keeps_bind (keeps_check _ _) fun _ => keeps_bind keeps_get fun s => ?_
    exact keeps_ite keeps_panic (keeps_bind (fr_lift _) fun q => keeps_bind (keeps_modify fun _ h => h) fun _ =>
      keeps_bind (fun s h => bw_mbLoop _ _ s h) fun _ => fr_lift _)
  exact hk { s with br := ⟨t, s.br.pos + 32, s.br.stop, s.br.later⟩ } (Frame.Below.refl row s.frame)

theorem Frame.Below.geometry {row W H : Nat} {g f : Frame} (h : g.Below row f) (hg : Geometry g W H) : Geometry f W H :=
  ⟨h.yStride.trans hg.yStride, h.cStride.trans hg.cStride, h.y.1.trans hg.yLen, h.cb.1.trans hg.cbLen, h.cr.1.trans hg.crLen⟩

theorem index_lt {k row W x y : Nat} (hx : x < k * W) (hy : y / k < row) : y * (k * W) + x < k * row * (k * W) := by
  have hk : 0 < k := by
    rcases Nat.eq_zero_or_pos k with rfl | h
    · simp at hx
    · exact h
  have h1 : y < row * k := (Nat.div_lt_iff_lt_mul hk).1 hy
  have h2 : (y + 1) * (k * W) ≤ k * row * (k * W) := Nat.mul_le_mul_right _ (by rw [Nat.mul_comm]; omega)
  rw [Nat.add_mul, Nat.one_mul] at h2
  omega

theorem Frame.Below.sample {row W H c x y : Nat} {g f : Frame} (h : g.Below row f) (hg : Geometry g W H)
    (hx : x < side c * W) (hy : y / side c < row) : sampleOf f c x y = sampleOf g c x y := by
  unfold sampleOf
  by_cases h0 : c = 0
  · subst h0
    have h1 : y * (16 * W) + x < 16 * row * (16 * W) := index_lt hx hy
    rw [if_pos rfl, if_pos rfl]
    unfold pixY
    rw [h.yStride, h.y.2 _ (by rw [hg.yStride]; exact h1)]
  · have hs : side c = 8 := if_neg h0
    rw [hs] at hx hy
    have h1 : y * (8 * W) + x < 8 * row * (8 * W) := index_lt hx hy
    rw [if_neg h0, if_neg h0]
    split
    · unfold pixCb
      rw [h.cStride, h.cb.2 _ (by rw [hg.cStride]; exact h1)]
    · unfold pixCr
      rw [h.cStride, h.cr.2 _ (by rw [hg.cStride]; exact h1)]

/-! ### pictures with damaged slices -/

theorem Covered.plain {e : PicEnv} (h : Covered e) : Plain e :=
  ⟨h.chroma, fun s hs t ht => h.fcodes s t hs ht, h.fpfd.imp id fun h' => ⟨h', h.structure_⟩⟩

section
variable {stop : Err} {later : List (List Bool × Err)} {e : PicEnv} {r : RefPics} {W H : Nat}

theorem piece_bytes {p : DPiece} (h : p.OK e r W H) : p.received.length % 8 = 0 := by
  unfold DPiece.received
  cases hd : p.damage with
  | none => exact slices_bytes rfl h.1
  | some d =>
    obtain ⟨l, k, t, -, -, -, hb⟩ := h.2 d hd
    dsimp only
    rw [hb]
    simp only [List.length_append, zeros, List.length_replicate]
    unfold padding
    omega

theorem piece_start {p : DPiece} (h : p.OK e r W H) :
    ∃ c t, (1 ≤ c ∧ c ≤ 0xAF) ∧ p.received = prefix1 ++ (bitsOf 8 c ++ t) := by
  unfold DPiece.received
  cases hd : p.damage with
  | none =>
    obtain ⟨h1, t, h2⟩ := slices_start h.1
    exact ⟨1 + p.slice.row, t, by omega, h2⟩
  | some d =>
    obtain ⟨l, k, t, -, hrow, hl, hb⟩ := h.2 d hd
    refine ⟨1 + d.1, t ++ (zeros (padding l.length) ++ zeros (8 * k)), by omega, ?_⟩
    dsimp only
    rw [hb, hl, show 0x101 + d.1 = 0x100 + (1 + d.1) by omega, code32_bits (by omega)]
    simp only [List.append_assoc]

theorem pieces_start {ps : List DPiece} (h : ∀ p ∈ ps, p.OK e r W H) (hne : ps ≠ []) :
    ∃ c t, (1 ≤ c ∧ c ≤ 0xAF) ∧ receivedBits ps = prefix1 ++ (bitsOf 8 c ++ t) := by
  cases ps with
  | nil => exact absurd rfl hne
  | cons p ps =>
    obtain ⟨c, t, hc, ht⟩ := piece_start (h p List.mem_cons_self)
    refine ⟨c, t ++ receivedBits ps, hc, ?_⟩
    show p.received ++ receivedBits ps = _
    rw [ht]
    simp only [List.append_assoc]

/-- one piece -/
theorem piece_run (hc : Covered e) (hrr : RefsRel W H e r) (s1 : Samples r.past) (s2 : Samples r.future) {p : DPiece}
    (hp : p.OK e r W H) {rest : List Bool} {pos : Nat} (hpos : pos % 8 = 0) {P P' : Image} {m : MB} (hf : Shows W H m.frame P')
    (hbr : m.br = ⟨p.received ++ (prefix1 ++ rest), pos, stop, later⟩) :
    (slice e m).1 = .panic ∨ ∃ m' Q, slice e m = (.ok (), m') ∧ m'.br = ⟨prefix1 ++ rest, pos + p.received.length, stop, later⟩ ∧
      Shows W H m'.frame Q ∧ ∀ c x y, c < 3 → x < side c * W → y < side c * H → ∀ A : Prop, (A → P c x y = P' c x y) →
        (match p.damage with
          | none => A ∨ p.slice.Covers e.ph.pictureCodingType c x y
          | some d => A ∧ y / side c < d.1 ∧ ¬ p.slice.Covers e.ph.pictureCodingType c x y) →
        p.slice.image e r P c x y = Q c x y := by
  unfold DPiece.received at hbr ⊢
  cases hd : p.damage with
  | none =>
    rw [hd] at hbr
    dsimp only at hbr ⊢
    right
    have h0 := slices_move (r' := r) (fun h => h) (pos := 0) (pos' := pos) (P' := P') (by omega) hp.1
    generalize hbits : p.bits = bits at *
    cases h0 with
    | @cons _ _ _ _ b more k hs hm =>
      cases hm
      obtain ⟨m', g1, g2, g3⟩ := slice_run (F := True) (pos := pos) (stop := stop) (later := later) hc hrr.always (fun _ => trivial) s1 s2
        (fun _ _ _ => trivial) hs k rest hf (by rw [hbr]; simp only [List.append_assoc, List.nil_append])
      refine ⟨m', _, g1, ?_, g2, fun c x y _ _ _ A hA h => ?_⟩
      · rw [g3]
        simp only [List.length_append, zeros, List.length_replicate, List.length_nil]
        congr 1
        omega
      · by_cases hcov : p.slice.Covers e.ph.pictureCodingType c x y
        · exact image_cover hcov
        · rw [image_uncovered hcov, image_uncovered hcov]
          exact hA (h.resolve_right hcov)
  | some d =>
    rw [hd] at hbr
    dsimp only at hbr ⊢
    obtain ⟨l, k, t, hl, hrow, ht, hb⟩ := hp.2 d hd
    have hpad : padding (pos + l.length) = padding l.length := padding_congr (by omega)
    rcases slice_fwd hc.plain hl (s := m) (k := k) (r := rest) (by
      rw [hbr]
      dsimp only
      rw [hpad, hb]
      simp only [List.append_assoc]) with h | ⟨m', h1, h2⟩
    · exact .inl h
    · right
      have hbel := slice_below (e := e) hrow (s := m) (t := t ++ ((zeros (padding l.length) ++ zeros (8 * k)) ++ (prefix1 ++ rest))) (by
        rw [hbr]
        dsimp only
        rw [hb]
        simp only [List.append_assoc]
        rw [← List.append_assoc (bitsOf _ _) t, ← ht])
      rw [h1] at hbel
      refine ⟨m', sampleOf m'.frame, h1, ?_, ⟨hbel.geometry hf.1, fun _ _ _ _ _ _ => rfl⟩, fun c x y hc3 hx hy A hA h => ?_⟩
      · rw [h2, hbr]
        dsimp only
        rw [hpad, hb]
        simp only [List.length_append, zeros, List.length_replicate]
        congr 1
        omega
      · rw [image_uncovered h.2.2, hbel.sample hf.1 hx h.2.1, hf.2 c x y hc3 hx hy]
        exact hA h.1

theorem sliceLoop_damaged (hc : Covered e) (hrr : RefsRel W H e r) (s1 : Samples r.past) (s2 : Samples r.future) {c : Nat}
    (hc8 : c < 256) (hcs : ¬ (1 ≤ c ∧ c ≤ 0xAF)) (rest : List Bool) :
    ∀ (ps : List DPiece), (∀ p ∈ ps, p.OK e r W H) → ps ≠ [] → ∀ (pos : Nat) (P P' : Image) (fuel : Nat) (m : MB), pos % 8 = 0 →
      ps.length ≤ fuel → Shows W H m.frame P' →
      m.br = ⟨receivedBits ps ++ (prefix1 ++ (bitsOf 8 c ++ rest)), pos, stop, later⟩ →
      (sliceLoop e fuel m).1 = .panic ∨ ∃ m' Q, sliceLoop e fuel m = (.ok (), m') ∧
        m'.br = ⟨prefix1 ++ (bitsOf 8 c ++ rest), pos + (receivedBits ps).length, stop, later⟩ ∧
        Shows W H m'.frame Q ∧ ∀ a x y, a < 3 → x < side a * W → y < side a * H → ∀ A : Prop, (A → P a x y = P' a x y) →
          unharmed e.ph.pictureCodingType a x y A ps → slicesImage e r P (ps.map (·.slice)) a x y = Q a x y := by
  intro ps
  induction ps with
  | nil => intro _ h; exact absurd rfl h
  | cons p ps ih =>
    intro hok _ pos P P' fuel m hpos hf hfr hbr
    obtain ⟨fuel, rfl⟩ : ∃ f, fuel = f + 1 := ⟨fuel - 1, by simp only [List.length_cons] at hf; omega⟩
    have hpk := hok p List.mem_cons_self
    have hpsk : ∀ q ∈ ps, q.OK e r W H := fun q hq => hok q (List.mem_cons_of_mem _ hq)
    obtain ⟨c', t, hc', hmt, hsc⟩ : ∃ c' t, c' < 256 ∧
        receivedBits ps ++ (prefix1 ++ (bitsOf 8 c ++ rest)) = prefix1 ++ (bitsOf 8 c' ++ t) ∧
        ((ps = [] ∧ c' = c ∧ t = rest) ∨ (ps ≠ [] ∧ 1 ≤ c' ∧ c' ≤ 0xAF)) := by
      by_cases hne : ps = []
      · subst hne
        exact ⟨c, rest, hc8, rfl, .inl ⟨rfl, rfl, rfl⟩⟩
      · obtain ⟨c1, t, h1, h2⟩ := pieces_start hpsk hne
        refine ⟨c1, t ++ (prefix1 ++ (bitsOf 8 c ++ rest)), by omega, ?_, .inr ⟨hne, h1⟩⟩
        rw [h2]; simp only [List.append_assoc]
    have hbr' : m.br = ⟨p.received ++ (prefix1 ++ (bitsOf 8 c' ++ t)), pos, stop, later⟩ := by
      rw [hbr, ← hmt]
      show BR.mk ((p.received ++ receivedBits ps) ++ _) _ _ _ = _
      simp only [List.append_assoc]
    unfold sliceLoop
    rcases piece_run (P := P) hc hrr s1 s2 hpk hpos hfr hbr' with h | ⟨m1, Q1, g1, g2, g3, g4⟩
    · exact .inl (Reads.bind_panic' h)
    rw [Go.bind_ok g1]
    have hpk : MB.lift (BR.peek 32) m1 = (.ok (0x100 + c'), m1) := by
      have : BR.peek 32 m1.br = (.ok (0x100 + c'), m1.br) := by
        rw [g2, ← List.append_assoc, ← code32_bits hc', BR.peek_bitsOf, Nat.mod_eq_of_lt (by omega)]
      exact mlift_run this
    rw [Go.bind_ok hpk, isSlice_code hc']
    have hun : ∀ a x y (A : Prop), unharmed e.ph.pictureCodingType a x y A (p :: ps) = unharmed e.ph.pictureCodingType a x y
        (match p.damage with
          | none => A ∨ p.slice.Covers e.ph.pictureCodingType a x y
          | some d => A ∧ y / side a < d.1 ∧ ¬ p.slice.Covers e.ph.pictureCodingType a x y) ps := by
      intro a x y A
      conv => lhs; unfold unharmed
      cases p.damage <;> rfl
    rcases hsc with ⟨rfl, rfl, rfl⟩ | ⟨hne, h1, h2⟩
    · rw [decide_eq_false hcs]
      right
      refine ⟨m1, Q1, rfl, ?_, g3, fun a x y ha hx hy A hA h => ?_⟩
      · rw [g2]
        show _ = BR.mk _ (pos + (p.received ++ receivedBits []).length) _ _
        simp [receivedBits]
      · rw [hun] at h
        exact g4 a x y ha hx hy A hA h
    · rw [decide_eq_true ⟨h1, h2⟩]
      rw [← hmt] at g2
      have hb8 := piece_bytes (hok p List.mem_cons_self)
      rcases ih hpsk hne (pos + p.received.length) (p.slice.image e r P) Q1 fuel m1 (by omega)
        (by simp only [List.length_cons] at hf; omega) g3 g2 with h | ⟨m2, Q2, f1, f2, f3, f4⟩
      · exact .inl h
      · right
        refine ⟨m2, Q2, f1, ?_, f3, fun a x y ha hx hy A hA h => ?_⟩
        · rw [f2]
          show _ = BR.mk _ (pos + (p.received ++ receivedBits ps).length) _ _
          rw [List.length_append, Nat.add_assoc]
        · rw [hun] at h
          exact f4 a x y ha hx hy _ (fun hA' => g4 a x y ha hx hy A hA hA') h

end

end Mpeg.Video
