/-
A picture with its headers is decoded by one step.
-/
import Verif.Video.StreamLemmas
import Verif.Video.ExtLemmas
import Verif.Video.HeaderProps
import Verif.Video.OrderLemmas3
set_option linter.all false
namespace Mpeg.Video
open Spec

variable {stop : Err} {later : List (List Bool × Err)}

/-! ### the headers in force -/

structure Good (W H : Nat) (x : Ctx) : Prop where
  chroma : x.ext.chroma = 1
  width : W = (4096 * x.ext.widthExt + x.seq.width + 15) / 16
  height : H = (4096 * x.ext.heightExt + x.seq.height + 15) / 16
  w12 : x.seq.width < 2 ^ 12
  h12 : x.seq.height < 2 ^ 12
  m0 : ∀ v ∈ x.mats.m0, v < 256
  m1 : ∀ v ∈ x.mats.m1, v < 256

structure At (W H : Nat) (x : Ctx) (s : VS) : Prop where
  good : Good W H x
  sh : s.sh = some (viewSeq x.seq)
  se : s.se = some (viewSeqExt x.ext)
  qm : s.qm = x.mats.qm

def AtO (W H : Nat) : Option Ctx → VS → Prop
  | none, s => s.sh = none
  | some x, s => At W H x s

/-! ### matrices -/

theorem isoIntra_eq : defaultIntra = isoIntra := by decide

theorem seq_mats {h : Seq} (hi : ∀ m, h.intra = some m → Mat.Symmetric m) (hn : ∀ m, h.nonIntra = some m → Mat.Symmetric m) :
    (⟨h.intra.getD defaultIntra, h.nonIntra.getD defaultNonIntra, h.intra.getD defaultIntra,
      h.nonIntra.getD defaultNonIntra⟩ : QMatrices) = h.mats.qm := by
  have k : ∀ (o : Option Mat) (d : Mat), (∀ m, o = some m → Mat.Symmetric m) → (o.map raster).getD d = o.getD d := by
    intro o d ho
    cases o with
    | none => rfl
    | some m => exact ho m rfl
  unfold Seq.mats Mats.qm
  rw [k _ _ hi, k _ _ hn, isoIntra_eq]
  rfl

theorem load_same {q : Mats} {it : Item} (h : it.SymmetricMats) : it.loadRaster q = it.load q := by
  cases it with
  | quant h' =>
    have k : ∀ (o : Option Mat), (∀ m, o = some m → Mat.Symmetric m) → o.map raster = o := by
      intro o ho
      cases o with
      | none => rfl
      | some m => exact congrArg some (ho m rfl)
    unfold Item.loadRaster Item.load
    dsimp only
    rw [k _ fun m hm => h m (.inl hm), k _ fun m hm => h m (.inr (.inl hm)), k _ fun m hm => h m (.inr (.inr (.inl hm))),
      k _ fun m hm => h m (.inr (.inr (.inr hm)))]
  | user d => rfl
  | display d => rfl
  | temporal d => rfl

theorem loads_same : ∀ {its : List Item} {q : Mats}, (∀ it ∈ its, it.SymmetricMats) →
    its.foldl Item.loadRaster q = its.foldl Item.load q
  | [], _, _ => rfl
  | it :: its, q, h => by
    rw [List.foldl_cons, List.foldl_cons, load_same (h it (List.mem_cons_self ..))]
    exact loads_same fun i hi => h i (List.mem_cons_of_mem _ hi)

theorem items_ok {i : Nat} {its : List Item} {pos : Nat} {bits : List Bool} (h : ItemsCode i pos its bits) :
    ∀ it ∈ its, it.OK i := by
  induction h with
  | nil => intro it hi; cases hi
  | user ok _ ih =>
    intro it hi
    rcases List.mem_cons.1 hi with rfl | hi
    · exact ok
    · exact ih it hi
  | ext k ok hu hp _ ih =>
    intro it hi
    rcases List.mem_cons.1 hi with rfl | hi
    · exact ok
    · exact ih it hi

theorem items_length {i : Nat} {its : List Item} {pos : Nat} {bits : List Bool} (h : ItemsCode i pos its bits) :
    32 * its.length ≤ bits.length := by
  induction h with
  | nil => simp
  | user ok _ ih => simp only [encUser, List.length_append, length_bitsOf, List.length_cons]; omega
  | ext k ok hu hp _ ih => simp only [List.length_append, length_bitsOf, List.length_cons]; omega

theorem items_aligned {i : Nat} {its : List Item} {pos : Nat} {bits : List Bool} (h : ItemsCode i pos its bits)
    (ha : pos % 8 = 0) : (pos + bits.length) % 8 = 0 := by
  induction h with
  | nil => simpa using ha
  | @user pos d its more ok _ ih =>
    have hd : (d.flatMap (bitsOf 8)).length = 8 * d.length := length_encMat d
    have := ih (by simp only [encUser, List.length_append, length_bitsOf, hd]; omega)
    simp only [List.length_append] at this ⊢
    omega
  | @ext pos it its pad more k ok hu hp _ ih =>
    have := ih (by rw [hp]; unfold padding; omega)
    simp only [List.length_append, length_bitsOf, zeros, List.length_replicate] at this ⊢
    omega

theorem loads_none {i : Nat} (hi : i ≠ 2) : ∀ {its : List Item} {q : Mats}, (∀ it ∈ its, it.OK i) →
    its.foldl Item.load q = q
  | [], _, _ => rfl
  | it :: its, q, h => by
    have : it.load q = q := by
      cases it with
      | quant d => exact absurd (h _ (List.mem_cons_self ..)).1 hi
      | user d => rfl
      | display d => rfl
      | temporal d => rfl
    rw [List.foldl_cons, this]
    exact loads_none hi fun j hj => h j (List.mem_cons_of_mem _ hj)

theorem latest_small {old : Mat} {l : List (Option Mat)} (h0 : ∀ v ∈ old, v < 256)
    (hl : ∀ m, some m ∈ l → ∀ v ∈ m, v < 256) : ∀ v ∈ latest old l, v < 256 := by
  induction l generalizing old with
  | nil => exact h0
  | cons o l ih =>
    cases o with
    | none => exact ih h0 fun m hm => hl m (List.mem_cons_of_mem _ hm)
    | some m => exact ih (hl m (List.mem_cons_self ..)) fun m hm => hl m (List.mem_cons_of_mem _ hm)

theorem loads_small {i : Nat} : ∀ {its : List Item} {q : Mats}, (∀ it ∈ its, it.OK i) →
    (∀ v ∈ q.m0, v < 256) → (∀ v ∈ q.m1, v < 256) →
    (∀ v ∈ (its.foldl Item.load q).m0, v < 256) ∧ (∀ v ∈ (its.foldl Item.load q).m1, v < 256)
  | [], _, _, h0, h1 => ⟨h0, h1⟩
  | it :: its, q, h, h0, h1 => by
    rw [List.foldl_cons]
    refine loads_small (fun j hj => h j (List.mem_cons_of_mem _ hj)) ?_ ?_
    · cases it with
      | quant d =>
        refine latest_small h0 fun m hm => ?_
        exact ((h _ (List.mem_cons_self ..)).2.1 m (by simpa [eq_comm] using hm)).2
      | user d => exact h0
      | display d => exact h0
      | temporal d => exact h0
    · cases it with
      | quant d =>
        refine latest_small h1 fun m hm => ?_
        exact ((h _ (List.mem_cons_self ..)).2.2.1 m (by simpa [eq_comm] using hm)).2
      | user d => exact h1
      | display d => exact h1
      | temporal d => exact h1

theorem good_seq {W H : Nat} {q : SeqPart} (h : q.OK W H) : Good W H ⟨q.hdr, q.ext, q.hdr.mats⟩ := by
  have ks : ∀ (o : Option Mat) (d : Mat), optWF o → (∀ m, o = some m → Mat.Symmetric m) → (∀ v ∈ d, v < 256) →
      ∀ v ∈ (o.map raster).getD d, v < 256 := by
    intro o d ho hs hd
    cases o with
    | none => exact hd
    | some m =>
      have : raster m = m := hs m rfl
      show ∀ v ∈ raster m, v < 256
      rw [this]
      exact (ho m rfl).2
  obtain ⟨w1, w2, _, _, _, _, w7, w8⟩ := h.hdr
  exact ⟨h.chroma, h.width, h.height.trans h.even, w1, w2, ks _ _ w7 h.intra (by decide), ks _ _ w8 h.nonIntra (by decide)⟩

theorem good_items {W H i : Nat} {x : Ctx} (h : Good W H x) {its : List Item} (ho : ∀ it ∈ its, it.OK i) :
    Good W H { x with mats := its.foldl Item.load x.mats } := by
  obtain ⟨a, b⟩ := loads_small (i := i) ho h.m0 h.m1
  exact ⟨h.chroma, h.width, h.height, h.w12, h.h12, a, b⟩

theorem at_size {W H : Nat} {x : Ctx} {s : VS} (h : At W H x s) :
    W = (s.size.1.toNat + 15) / 16 ∧ H = (s.size.2.toNat + 15) / 16 := by
  have key : ∀ a b : Nat, a < 2 ^ 12 → a ||| (b <<< 12) = 4096 * b + a := by
    intro a b ha
    rw [Nat.or_comm, ← Nat.shiftLeft_add_eq_or_of_lt ha, Nat.shiftLeft_eq, Nat.mul_comm]
  unfold VS.size
  rw [h.sh, h.se]
  dsimp only [viewSeq, viewSeqExt]
  rw [key _ _ h.good.w12, key _ _ h.good.h12]
  exact ⟨h.good.width, h.good.height⟩

/-! ### parts -/

theorem parts_split : ∀ {Ps Qs : List Part} {pos : Nat} {bits : List Bool}, Parts pos (Ps ++ Qs) bits →
    ∃ b bs, bits = b ++ bs ∧ Parts pos Ps b ∧ Parts (pos + b.length) Qs bs
  | [], Qs, pos, bits, h => ⟨[], bits, rfl, .nil, h⟩
  | P :: Ps, Qs, pos, _, h => by
    cases h with
    | @cons _ _ _ b bs hp hr =>
      obtain ⟨c, cs, rfl, h1, h2⟩ := parts_split hr
      refine ⟨b ++ c, cs, (List.append_assoc ..).symm, .cons hp h1, ?_⟩
      rw [List.length_append, ← Nat.add_assoc]
      exact h2

theorem parts_inv {P : Part} {Ps : List Part} {pos : Nat} {bits : List Bool} (h : Parts pos (P :: Ps) bits) :
    ∃ b bs, bits = b ++ bs ∧ P pos b ∧ Parts (pos + b.length) Ps bs := by
  cases h with
  | cons hp hr => exact ⟨_, _, rfl, hp, hr⟩

theorem parts_nil {pos : Nat} {bits : List Bool} (h : Parts pos [] bits) : bits = [] := by cases h; rfl

theorem stuffed_tail {h b : List Bool} {pos : Nat} (hs : Stuffed h pos b) (rest : List Bool) :
    ∃ t : Tail, b ++ (prefix1 ++ rest) = h ++ t.bits ∧ t.OK (pos + h.length) ∧
      (∀ (stop : Err) (later : List (List Bool × Err)),
        t.after (pos + h.length) stop later = ⟨prefix1 ++ rest, pos + b.length, stop, later⟩) ∧
      (pos + b.length) % 8 = 0 := by
  obtain ⟨pad, k, hp, rfl⟩ := hs
  refine ⟨⟨pad, k, rest⟩, ?_, hp, fun stop later => ?_, ?_⟩
  · simp only [Tail.bits, List.append_assoc]
  · simp only [Tail.after, List.length_append, zeros, List.length_replicate, BR.mk.injEq, true_and, and_true]; omega
  · simp only [List.length_append, zeros, List.length_replicate, hp]; unfold padding; omega

/-- A header begins with its start code. -/
theorem stuffed_starts {h b r : List Bool} {c pos : Nat} (hc : c < 256) (hh : h = bitsOf 32 (0x100 + c) ++ r)
    (hs : Stuffed h pos b) : ∃ t, b = prefix1 ++ (bitsOf 8 c ++ t) := by
  obtain ⟨pad, k, _, rfl⟩ := hs
  rw [hh, code32_bits hc]
  simp only [List.append_assoc]
  exact ⟨_, rfl⟩

theorem starts_seq (h : Seq) : ∃ r, encSeq h = bitsOf 32 (0x100 + 0xB3) ++ r := by
  unfold encSeq; simp only [List.append_assoc]; exact ⟨_, rfl⟩
theorem starts_seqExt (h : SeqExt) : ∃ r, encSeqExt h = bitsOf 32 (0x100 + 0xB5) ++ r := by
  unfold encSeqExt; simp only [List.append_assoc]; exact ⟨_, rfl⟩
theorem starts_gop (h : GOP) : ∃ r, encGOP h = bitsOf 32 (0x100 + 0xB8) ++ r := by
  unfold encGOP; simp only [List.append_assoc]; exact ⟨_, rfl⟩
theorem starts_pic (h : Pic) : ∃ r, encPic h = bitsOf 32 (0x100 + 0) ++ r := by
  unfold encPic; simp only [List.append_assoc]; exact ⟨_, rfl⟩
theorem starts_picExt (h : PicExt) : ∃ r, encPicExt h = bitsOf 32 (0x100 + 0xB5) ++ r := by
  unfold encPicExt; simp only [List.append_assoc]; exact ⟨_, rfl⟩

theorem peek_at {s : VS} {c pos : Nat} {t : List Bool} (hc : c < 256)
    (hb : s.br = ⟨prefix1 ++ (bitsOf 8 c ++ t), pos, stop, later⟩) : VS.lift (BR.peek 32) s = (.ok (0x100 + c), s) := by
  refine vpeek_code (pos := pos) (stop := stop) (later := later) s (by omega) (t := t) ?_
  rw [hb, code32_bits hc, List.append_assoc]

/-! ### the sequence header -/

theorem seq_run {W H : Nat} {q : SeqPart} (h : q.OK W H) {b1 b2 b3 rest : List Bool} {pos c fuel : Nat} {s : VS}
    (h1 : Stuffed (encSeq q.hdr) pos b1) (h2 : Stuffed (encSeqExt q.ext) (pos + b1.length) b2)
    (h3 : ItemsPart 0 q.items (pos + b1.length + b2.length) b3) (hc : c < 256) (hc1 : c ≠ 0xB5) (hc2 : c ≠ 0xB2)
    (hf : b3.length + 1 ≤ fuel)
    (hb : s.br = ⟨b1 ++ (b2 ++ (b3 ++ (prefix1 ++ (bitsOf 8 c ++ rest)))), pos, stop, later⟩) :
    ∃ sA sB, sequenceHeader s = (.ok (), sA) ∧ VS.lift (BR.peek 32) sA = (.ok extensionStartCode, sA) ∧
      sequenceExtension sA = (.ok (), sB) ∧
      extensionAndUserData 0 fuel sB = (.ok (), { s with
        br := ⟨prefix1 ++ (bitsOf 8 c ++ rest), pos + b1.length + b2.length + b3.length, stop, later⟩
        sh := some (viewSeq q.hdr), se := some (viewSeqExt q.ext), qm := q.hdr.mats.qm }) := by
  obtain ⟨r2, hr2⟩ := starts_seqExt q.ext
  obtain ⟨u2, hu2⟩ := stuffed_starts (by decide) hr2 h2
  obtain ⟨u3, hu3⟩ := items_head h3 (bitsOf 8 c ++ rest)
  -- sequence header
  obtain ⟨t, ht1, ht2, ht3, ht4⟩ := stuffed_tail h1 (bitsOf 8 0xB5 ++ (u2 ++ (b3 ++ (prefix1 ++ (bitsOf 8 c ++ rest)))))
  have hb1 : s.br = ⟨encSeq q.hdr ++ t.bits, pos, stop, later⟩ := by
    rw [hb, ← ht1, hu2]; simp only [List.append_assoc]
  have e1 : sequenceHeader s = (.ok (), { s with
      br := ⟨b2 ++ (b3 ++ (prefix1 ++ (bitsOf 8 c ++ rest))), pos + b1.length, stop, later⟩
      sh := some (viewSeq q.hdr), qm := q.hdr.mats.qm }) := by
    unfold sequenceHeader
    rw [Go.bind_ok (lift_ok (by rw [hb1]; exact readSequenceHeader_enc q.hdr h.hdr t ht2)), Go.modify_apply, ht3]
    rw [← seq_mats h.intra h.nonIntra]
    have e : ∀ (o : Option Mat) (d : Matrix), (if o.isSome = true then o.getD zeroMatrix else d) = o.getD d := by
      intro o d; cases o <;> rfl
    have k1 := e q.hdr.intra defaultIntra
    have k2 := e q.hdr.nonIntra defaultNonIntra
    rw [← k1, ← k2, hu2]
    simp only [List.append_assoc]
    rfl
  -- sequence extension
  obtain ⟨t', ht1', ht2', ht3', ht4'⟩ := stuffed_tail h2 u3
  rw [hu3, ht1'] at e1
  have e2 : sequenceExtension { s with
      br := ⟨encSeqExt q.ext ++ t'.bits, pos + b1.length, stop, later⟩
      sh := some (viewSeq q.hdr), qm := q.hdr.mats.qm } = (.ok (), { s with
      br := ⟨prefix1 ++ u3, pos + b1.length + b2.length, stop, later⟩
      sh := some (viewSeq q.hdr), qm := q.hdr.mats.qm, se := some (viewSeqExt q.ext) }) := by
    unfold sequenceExtension
    rw [← ht3' stop later]
    exact store_ok (a := viewSeqExt q.ext) (b := ⟨t'.bits, pos + b1.length + 80, stop, later⟩)
      (readSequenceExtension_enc q.ext h.ext h.marker) rfl
      (by rw [← length_encSeqExt q.ext]; exact nextStartCode_tail t' ht2')
  rw [← hu3] at e2
  refine ⟨_, _, e1, ?_, e2, ?_⟩
  · refine vpeek_code (pos := pos + b1.length) (stop := stop) (later := later) _ (by decide) (t := r2 ++ t'.bits) ?_
    show (⟨encSeqExt q.ext ++ t'.bits, pos + b1.length, stop, later⟩ : BR) = _
    rw [hr2, List.append_assoc]
  · have hl := items_length h3
    have hi := items_run (i := 0) hc hc1 hc2 (rest := rest) h3 ht4' (s := { s with
      br := ⟨b3 ++ (prefix1 ++ (bitsOf 8 c ++ rest)), pos + b1.length + b2.length, stop, later⟩
      sh := some (viewSeq q.hdr), qm := q.hdr.mats.qm, se := some (viewSeqExt q.ext) }) (q := q.hdr.mats) rfl rfl
      (fuel := fuel) (by omega)
    rw [hi, loads_none (i := 0) (by decide) (items_ok h3)]

/-! ### up to the picture -/

theorem step_of_toPicture {fuel : Nat} {s s1 : VS} (h : toPicture fuel s = (.ok (), s1)) :
    step fuel s = moreFrames fuel s1 := by
  unfold toPicture at h
  unfold step
  split at h
  · rename_i hs
    rw [if_pos hs]
    unfold resumeTo at h
    obtain ⟨v, s2, h1, h⟩ := Go.bind_eq_ok h
    unfold resume
    rw [Go.bind_ok h1]
    split at h
    · rename_i hv
      rw [if_pos hv]
      cases h
      rfl
    · rename_i hv
      rw [if_neg hv]
      split at h
      · obtain ⟨u, s3, _, h⟩ := Go.bind_eq_ok h
        cases h
      · rename_i hv2
        rw [if_neg hv2]
        obtain ⟨u, s3, h3, h⟩ := Go.bind_eq_ok h
        obtain ⟨u, s4, h4, h⟩ := Go.bind_eq_ok h
        rw [Go.bind_ok h3, Go.bind_ok h4]
        unfold continueFrames
        rw [Go.bind_ok h]
  · rename_i hs
    rw [if_neg hs]
    unfold startTo at h
    obtain ⟨u, s2, h2, h⟩ := Go.bind_eq_ok h
    obtain ⟨u, s3, h3, h⟩ := Go.bind_eq_ok h
    obtain ⟨v, s4, h4, h⟩ := Go.bind_eq_ok h
    obtain ⟨u, s5, h5, h⟩ := Go.bind_eq_ok h
    obtain ⟨u, s6, h6, h⟩ := Go.bind_eq_ok h
    unfold start
    rw [Go.bind_ok h2, Go.bind_ok h3, Go.bind_ok h4, Go.bind_ok h5, Go.bind_ok h6]
    unfold continueFrames
    rw [Go.bind_ok h]

/-- The context before the matrices of the picture are loaded. -/
def seqCtx (σ : Option Ctx) (c : Coded) : Option Ctx :=
  match c.seq with
  | some q => some (Ctx.mk q.hdr q.ext q.hdr.mats)
  | none => σ

def seqParts (c : Coded) : List Part :=
  match c.seq with
  | some q => [Stuffed (encSeq q.hdr), Stuffed (encSeqExt q.ext), ItemsPart 0 q.items]
  | none => []

def gopParts (c : Coded) : List Part :=
  match c.gop with
  | some g => [Stuffed (encGOP g.hdr), ItemsPart 1 g.items]
  | none => []

theorem toPicture_run {W H : Nat} {σ : Option Ctx} {x : Ctx} {c : Coded} (hok : c.OK W H) {s : VS}
    (hat : c.seq = none → AtO W H σ s) (hx : seqCtx σ c = some x) {pos k n fuel : Nat} {bits rest : List Bool}
    (hk : s.sh ≠ none → k = 0)
    (hp : Parts pos (seqParts c) bits) (hn : n = 0 ∨ n = 0xB8) (ha : pos % 8 = 0) (hpos : 8 * k ≤ pos)
    (hf : bits.length + 1 ≤ fuel)
    (hb : s.br = ⟨zeros (8 * k) ++ (bits ++ (prefix1 ++ (bitsOf 8 n ++ rest))), pos - 8 * k, stop, later⟩) :
    ∃ s1, toPicture fuel s = (.ok (), s1) ∧ At W H x s1 ∧ s1.fs = s.fs ∧ s1.frameCounter = s.frameCounter ∧
      s1.br = ⟨prefix1 ++ (bitsOf 8 n ++ rest), pos + bits.length, stop, later⟩ := by
  have hn256 : n < 256 := by omega
  unfold seqCtx at hx
  unfold seqParts at hp
  cases hq : c.seq with
  | none =>
    rw [hq] at hx hp
    dsimp only at hx hp
    subst hx
    have hb0 := parts_nil hp
    subst hb0
    have hat' : At W H x s := hat hq
    have hk0 := hk (by rw [hat'.sh]; simp)
    subst hk0
    have hbr : s.br = ⟨prefix1 ++ (bitsOf 8 n ++ rest), pos, stop, later⟩ := by rw [hb]; rfl
    refine ⟨s, ?_, hat', rfl, rfl, hbr⟩
    unfold toPicture
    rw [hat'.sh, Option.isSome_some, if_pos rfl]
    unfold resumeTo
    rw [Go.bind_ok (peek_at hn256 hbr), if_pos (by rcases hn with rfl | rfl; exact .inl rfl; exact .inr rfl)]
    rfl
  | some q =>
    rw [hq] at hx hp
    dsimp only at hx hp
    cases hx
    obtain ⟨b1, bs1, rfl, p1, hp⟩ := parts_inv hp
    obtain ⟨b2, bs2, rfl, p2, hp⟩ := parts_inv hp
    obtain ⟨b3, bs3, rfl, p3, hp⟩ := parts_inv hp
    have := parts_nil hp
    subst this
    have hq' := hok.seq q hq
    have hlen : pos + (b1 ++ (b2 ++ (b3 ++ []))).length = pos + b1.length + b2.length + b3.length := by
      simp only [List.length_append, List.length_nil]; omega
    have hf3 : b3.length + 1 ≤ fuel := by simp only [List.length_append, List.length_nil] at hf; omega
    rw [hlen]
    obtain ⟨r1, hr1⟩ := starts_seq q.hdr
    obtain ⟨u1, hu1⟩ := stuffed_starts (by decide) hr1 p1
    have fin : ∀ (s' : VS), s'.fs = s.fs → s'.frameCounter = s.frameCounter →
        s'.br = ⟨b1 ++ (b2 ++ (b3 ++ (prefix1 ++ (bitsOf 8 n ++ rest)))), pos, stop, later⟩ →
        ∃ sA sB s1, sequenceHeader s' = (.ok (), sA) ∧ VS.lift (BR.peek 32) sA = (.ok extensionStartCode, sA) ∧
          sequenceExtension sA = (.ok (), sB) ∧ extensionAndUserData 0 fuel sB = (.ok (), s1) ∧
          At W H ⟨q.hdr, q.ext, q.hdr.mats⟩ s1 ∧ s1.fs = s.fs ∧ s1.frameCounter = s.frameCounter ∧
          s1.br = ⟨prefix1 ++ (bitsOf 8 n ++ rest), pos + b1.length + b2.length + b3.length, stop, later⟩ := by
      intro s' h1 h2 h3
      obtain ⟨sA, sB, e1, e2, e3, e4⟩ := seq_run hq' p1 p2 p3 hn256 (by omega) (by omega) hf3 h3
      exact ⟨sA, sB, _, e1, e2, e3, e4, ⟨good_seq hq', rfl, rfl, rfl⟩, h1, h2, rfl⟩
    cases hat' : s.sh with
    | none =>
      have e0 : VS.lift nextStartCode s = (.ok (), { s with
          br := ⟨b1 ++ (b2 ++ (b3 ++ (prefix1 ++ (bitsOf 8 n ++ rest)))), pos, stop, later⟩ }) := by
        refine lift_ok ?_
        have hbr : s.br = ⟨Tail.bits ⟨[], k, bitsOf 8 0xB3 ++ (u1 ++ (b2 ++ (b3 ++ (prefix1 ++ (bitsOf 8 n ++ rest)))))⟩,
            pos - 8 * k, stop, later⟩ := by
          rw [hb, hu1]; simp only [Tail.bits, List.append_assoc, List.nil_append, List.append_nil]
        have hto : Tail.OK ⟨[], k, bitsOf 8 0xB3 ++ (u1 ++ (b2 ++ (b3 ++ (prefix1 ++ (bitsOf 8 n ++ rest)))))⟩
            (pos - 8 * k) := by
          show ([] : List Bool).length = padding (pos - 8 * k)
          unfold padding; simp only [List.length_nil]; omega
        rw [hbr, nextStartCode_tail _ hto]
        simp only [Tail.after, hu1, List.append_assoc, Prod.mk.injEq, BR.mk.injEq, true_and, and_true, List.length_nil]
        omega
      obtain ⟨sA, sB, s1, e1, e2, e3, e4, r⟩ := fin { s with
          br := ⟨b1 ++ (b2 ++ (b3 ++ (prefix1 ++ (bitsOf 8 n ++ rest)))), pos, stop, later⟩ } rfl rfl rfl
      refine ⟨s1, ?_, r⟩
      unfold toPicture
      rw [hat', Option.isSome_none, if_neg (by decide)]
      unfold startTo
      rw [Go.bind_ok e0, Go.bind_ok e1, Go.bind_ok e2, beq_self_eq_true]
      have e5 : Go.check true Err.unsupported11172 sA = (.ok (), sA) := rfl
      rw [Go.bind_ok e5, Go.bind_ok e3, e4]
    | some x0 =>
      have hk0 := hk (by rw [hat']; simp)
      subst hk0
      have hbr : s.br = ⟨b1 ++ (b2 ++ (b3 ++ (prefix1 ++ (bitsOf 8 n ++ rest)))), pos, stop, later⟩ := by
        rw [hb]; simp only [List.append_assoc, List.append_nil]; rfl
      obtain ⟨sA, sB, s1, e1, e2, e3, e4, r⟩ := fin s rfl rfl hbr
      refine ⟨s1, ?_, r⟩
      unfold toPicture
      rw [hat', Option.isSome_some, if_pos rfl]
      unfold resumeTo
      have hpk : VS.lift (BR.peek 32) s = (.ok 0x1B3, s) := by
        refine peek_at (c := 0xB3) (pos := pos) (stop := stop) (later := later) (by decide)
          (t := u1 ++ (b2 ++ (b3 ++ (prefix1 ++ (bitsOf 8 n ++ rest))))) ?_
        rw [hbr, hu1]; simp only [List.append_assoc]
      rw [Go.bind_ok hpk, if_neg (by decide), if_neg (by decide), Go.bind_ok e1, Go.bind_ok e3, e4]

end Mpeg.Video
