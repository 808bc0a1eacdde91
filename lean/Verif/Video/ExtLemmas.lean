/-
`extension_and_user_data` on encoded items.
-/
import Verif.Video.ExtSpec
import Verif.Video.HeaderLemmas2
set_option linter.all false
namespace Mpeg.Video
open Spec

section
variable {r : List Bool} {pos : Nat} {stop : Err} {later : List (List Bool × Err)}

/-! ### the two extensions -/

def viewDisp (h : SeqDisp) : SequenceDisplayExtension :=
  { videoFormat := h.format, colourDescription := h.colour.isSome, colourPrimaries := (h.colour.map (·.1)).getD 0,
    transferCharacteristics := (h.colour.map (·.2.1)).getD 0, matrixCoefficients := (h.colour.map (·.2.2)).getD 0,
    displayHorizontalSize := h.width, displayVerticalSize := h.height }

theorem read1OrFalse_cons (b : Bool) :
    read1OrFalse ⟨b :: r, pos, stop, later⟩ = (.ok b, ⟨r, pos + 1, stop, later⟩) := by
  unfold read1OrFalse
  rw [BR.read1_cons b]

theorem readSequenceDisplayExtension_enc (h : SeqDisp) (hw : h.WF) (t : Tail) (ht : t.OK (pos + (encSeqDisp h).length)) :
    readSequenceDisplayExtension ⟨encSeqDisp h ++ t.bits, pos, stop, later⟩ =
      (.ok (viewDisp h), t.after (pos + (encSeqDisp h).length) stop later) := by
  obtain ⟨h1, h2, h3, h4⟩ := hw
  obtain ⟨fmt, colour, w, hh⟩ := h
  unfold readSequenceDisplayExtension
  cases colour with
  | none =>
    simp only [encSeqDisp, List.append_assoc, List.cons_append, List.nil_append, List.length_append, length_bitsOf,
      List.length_cons, List.length_nil] at ht ⊢
    rw [Go.bind_ok (extensionID_bits _ (by decide)), Go.bind_ok (BR.read_bitsOf ..), Go.bind_ok (read1OrFalse_cons _)]
    simp only [Go.opt_false]
    rw [Go.bind_ok (Go.pure_apply ..), Go.bind_ok (Go.pure_apply ..), Go.bind_ok (Go.pure_apply ..),
      Go.bind_ok (BR.read_bitsOf ..), Go.bind_ok (markerBit_cons true), Go.bind_ok (BR.read_bitsOf ..)]
    rw [show pos + 4 + 3 + 1 + 14 + 1 + 14 = pos + (4 + (3 + (14 + (14 + 1) + 1))) by omega,
      Go.bind_ok (nextStartCode_tail t ht), Go.pure_apply, Nat.mod_eq_of_lt (show fmt < 2 ^ 3 from h1),
      Nat.mod_eq_of_lt h3, Nat.mod_eq_of_lt h4]
    rfl
  | some c =>
    obtain ⟨c1, c2, c3⟩ := c
    obtain ⟨k1, k2, k3⟩ := h2 _ rfl
    simp only [encSeqDisp, List.append_assoc, List.cons_append, List.nil_append, List.length_append, length_bitsOf,
      List.length_cons, List.length_nil] at ht ⊢
    rw [Go.bind_ok (extensionID_bits _ (by decide)), Go.bind_ok (BR.read_bitsOf ..), Go.bind_ok (read1OrFalse_cons _)]
    simp only [Go.opt_true]
    rw [Go.bind_ok (BR.read_bitsOf ..), Go.bind_ok (BR.read_bitsOf ..), Go.bind_ok (BR.read_bitsOf ..),
      Go.bind_ok (BR.read_bitsOf ..), Go.bind_ok (markerBit_cons true), Go.bind_ok (BR.read_bitsOf ..)]
    rw [show pos + 4 + 3 + 1 + 8 + 8 + 8 + 14 + 1 + 14 = pos + (4 + (3 + (8 + (8 + (8 + (14 + (14 + 1)))) + 1))) by omega,
      Go.bind_ok (nextStartCode_tail t ht), Go.pure_apply, Nat.mod_eq_of_lt (show fmt < 2 ^ 3 from h1),
      Nat.mod_eq_of_lt h3, Nat.mod_eq_of_lt h4, Nat.mod_eq_of_lt (show c1 < 2 ^ 8 from k1),
      Nat.mod_eq_of_lt (show c2 < 2 ^ 8 from k2), Nat.mod_eq_of_lt (show c3 < 2 ^ 8 from k3)]
    rfl

def viewTemp (h : TempExt) : PictureTemporalScalableExtension := ⟨h.select, h.forward, h.backward⟩

theorem readTemp_enc (h : TempExt) (hw : h.WF) (t : Tail) (ht : t.OK (pos + (encTemp h).length)) :
    readPictureTemporalScalableExtension ⟨encTemp h ++ t.bits, pos, stop, later⟩ =
      (.ok (viewTemp h), t.after (pos + (encTemp h).length) stop later) := by
  obtain ⟨h1, h2, h3⟩ := hw
  unfold readPictureTemporalScalableExtension
  simp only [encTemp, List.append_assoc, List.cons_append, List.nil_append, List.length_append, length_bitsOf,
    List.length_cons, List.length_nil] at ht ⊢
  rw [Go.bind_ok (extensionID_bits _ (by decide)), Go.bind_ok (BR.read_bitsOf ..), Go.bind_ok (BR.read_bitsOf ..),
    Go.bind_ok (markerBit_cons true), Go.bind_ok (BR.read_bitsOf ..)]
  rw [show pos + 4 + 2 + 10 + 1 + 10 = pos + (4 + (2 + (10 + (10 + 1)))) by omega,
    Go.bind_ok (nextStartCode_tail t ht), Go.pure_apply, Nat.mod_eq_of_lt (show h.select < 2 ^ 2 from h1),
    Nat.mod_eq_of_lt h2, Nat.mod_eq_of_lt h3]
  rfl

/-! ### user data -/

theorem UserOK.clear {d : List Nat} (h : UserOK d) (r : List Bool) (j : Nat) (hj : j < d.length) :
    ((d.flatMap (bitsOf 8) ++ (prefix1 ++ r)).drop (8 * j)).take 24 ≠ prefix1 := by
  have h1 := h.2 j hj
  have hl : (d.flatMap (bitsOf 8)).length = 8 * d.length := length_encMat d
  rw [← List.append_assoc, List.drop_append_of_le_length (by rw [List.length_append, hl]; omega),
    List.take_append_of_le_length (by rw [List.length_drop, List.length_append, hl, prefix1_length]; omega)]
  exact h1

/-! ### items -/

def _root_.Mpeg.Video.Spec.Mats.qm (q : Mats) : QMatrices := ⟨q.m0, q.m1, q.m2, q.m3⟩

theorem vpeek_code {c : Nat} (s : VS) {t : List Bool} (hc : c < 2 ^ 32) (hb : s.br = ⟨bitsOf 32 c ++ t, pos, stop, later⟩) :
    VS.lift (BR.peek 32) s = (.ok c, s) := by
  have : BR.peek 32 s.br = (.ok c, s.br) := by rw [hb, BR.peek_bitsOf, Nat.mod_eq_of_lt hc]
  exact lift_ok this

theorem code_prefix {c : Nat} (hc : c < 256) : bitsOf 32 (0x100 + c) = prefix1 ++ bitsOf 8 c := by
  have := bitsOf_add_mul 24 8 1 c hc
  rw [prefix1_eq]
  exact this

/-- What follows an item begins with a start code prefix. -/
theorem items_head {i : Nat} {its : List Item} {bits : List Bool} (h : ItemsCode i pos its bits) (x : List Bool) :
    ∃ t, bits ++ (prefix1 ++ x) = prefix1 ++ t := by
  cases h with
  | nil => exact ⟨x, rfl⟩
  | @user _ d its more ok hm =>
    refine ⟨bitsOf 8 0xB2 ++ (d.flatMap (bitsOf 8) ++ (more ++ (prefix1 ++ x))), ?_⟩
    have := code_prefix (c := 0xB2) (by decide)
    simp only [encUser, List.append_assoc]
    rw [show (0x1B2 : Nat) = 0x100 + 0xB2 from rfl, this]
    simp only [List.append_assoc]
  | @ext _ it its pad more k ok hu hp hm =>
    refine ⟨bitsOf 8 0xB5 ++ (it.body ++ (pad ++ (zeros (8 * k) ++ (more ++ (prefix1 ++ x))))), ?_⟩
    have := code_prefix (c := 0xB5) (by decide)
    rw [show (0x1B5 : Nat) = 0x100 + 0xB5 from rfl, this]
    simp only [List.append_assoc]

/-- One extension. -/
theorem extStep_run {i : Nat} {it : Item} (ok : it.OK i) (hu : ∀ d, it ≠ .user d) (s : VS) {pad t : List Bool} (k : Nat)
    {q : Mats} (hq : s.qm = q.qm) (hp : pad.length = padding (pos + 32 + it.body.length))
    (hb : s.br = ⟨bitsOf 32 0x1B5 ++ (it.body ++ (pad ++ (zeros (8 * k) ++ (prefix1 ++ t)))), pos, stop, later⟩) :
    extensionDataStep i s = (.ok (), { s with
      br := ⟨prefix1 ++ t, pos + 32 + it.body.length + pad.length + 8 * k, stop, later⟩, qm := (it.load q).qm }) := by
  have e0 : Go.ignoreErr (VS.lift (BR.skip 32)) s =
      (.ok (), { s with br := ⟨it.body ++ (pad ++ (zeros (8 * k) ++ (prefix1 ++ t))), pos + 32, stop, later⟩ }) := by
    unfold Go.ignoreErr
    rw [lift_ok (by rw [hb]; exact BR.skip_bitsOf 32 _)]
  unfold extensionDataStep
  rw [Go.bind_ok e0]
  cases it with
  | user d => exact absurd rfl (hu d)
  | display h =>
    obtain ⟨rfl, hw⟩ := ok
    rw [if_pos rfl]
    have h1 : VS.lift (BR.peek 4) { s with br := ⟨encSeqDisp h ++ (pad ++ (zeros (8 * k) ++ (prefix1 ++ t))), pos + 32, stop, later⟩ } =
        (.ok 2, { s with br := ⟨encSeqDisp h ++ (pad ++ (zeros (8 * k) ++ (prefix1 ++ t))), pos + 32, stop, later⟩ }) := by
      refine lift_ok ?_
      simp only [encSeqDisp, List.append_assoc]
      exact BR.peek_bitsOf 4 2
    have h2 := readSequenceDisplayExtension_enc (pos := pos + 32) (stop := stop) (later := later) h hw ⟨pad, k, t⟩ hp
    simp only [Item.body]
    rw [Go.bind_ok h1, if_pos rfl, Go.bind_ok (lift_ok (by exact h2))]
    simp only [Go.pure_apply, Tail.after, Item.load, ← hq]
  | quant h =>
    obtain ⟨rfl, hw⟩ := ok
    rw [if_neg (by decide), if_pos rfl]
    have h1 : VS.lift (BR.peek 4) { s with br := ⟨encQExt h ++ (pad ++ (zeros (8 * k) ++ (prefix1 ++ t))), pos + 32, stop, later⟩ } =
        (.ok 3, { s with br := ⟨encQExt h ++ (pad ++ (zeros (8 * k) ++ (prefix1 ++ t))), pos + 32, stop, later⟩ }) := by
      refine lift_ok ?_
      simp only [encQExt, List.append_assoc]
      exact BR.peek_bitsOf 4 3
    simp only [Item.body]
    rw [Go.bind_ok h1, if_pos rfl]
    obtain ⟨qq, h2, a0, a1, a2, a3⟩ := quantMatrixExtension_enc (pos := pos + 32) (stop := stop) (later := later) h hw
      { s with br := ⟨encQExt h ++ (pad ++ (zeros (8 * k) ++ (prefix1 ++ t))), pos + 32, stop, later⟩ } ⟨pad, k, t⟩ hp rfl
    rw [h2]
    have : qq = (Item.load q (.quant h)).qm := by
      obtain ⟨b0, b1, b2, b3⟩ := qq
      dsimp only at a0 a1 a2 a3
      rw [hq] at a0 a1 a2 a3
      rw [a0, a1, a2, a3]
      rfl
    rw [this]
    simp only [Tail.after]
  | temporal h =>
    obtain ⟨rfl, hw⟩ := ok
    rw [if_neg (by decide), if_pos rfl]
    have h1 : VS.lift (BR.peek 4) { s with br := ⟨encTemp h ++ (pad ++ (zeros (8 * k) ++ (prefix1 ++ t))), pos + 32, stop, later⟩ } =
        (.ok 10, { s with br := ⟨encTemp h ++ (pad ++ (zeros (8 * k) ++ (prefix1 ++ t))), pos + 32, stop, later⟩ }) := by
      refine lift_ok ?_
      simp only [encTemp, List.append_assoc]
      exact BR.peek_bitsOf 4 10
    have h2 := readTemp_enc (pos := pos + 32) (stop := stop) (later := later) h hw ⟨pad, k, t⟩ hp
    simp only [Item.body]
    rw [Go.bind_ok h1, if_neg (by decide), if_neg (by decide), Go.bind_ok (lift_ok (by exact h2))]
    simp only [Go.pure_apply, Tail.after, Item.load, ← hq]

/-- The items of a place, whatever follows (no extension and no user data), in both loops. -/
theorem items_both {i : Nat} {c : Nat} (hc : c < 256) (h1 : c ≠ 0xB5) (h2 : c ≠ 0xB2) (rest : List Bool) :
    ∀ (its : List Item) (pos : Nat) (bits : List Bool), ItemsCode i pos its bits → pos % 8 = 0 →
    ∀ (s : VS) (q : Mats), s.qm = q.qm → s.br = ⟨bits ++ (prefix1 ++ (bitsOf 8 c ++ rest)), pos, stop, later⟩ →
    (∀ f, 2 * its.length + 1 ≤ f → extensionAndUserData i f s = (.ok (), { s with
      br := ⟨prefix1 ++ (bitsOf 8 c ++ rest), pos + bits.length, stop, later⟩, qm := (its.foldl Item.load q).qm })) ∧
    (∀ f g, its.length + 1 ≤ f → 2 * its.length + 1 ≤ g →
      (extensionData i f >>= fun _ => extensionAndUserData i g) s = (.ok (), { s with
      br := ⟨prefix1 ++ (bitsOf 8 c ++ rest), pos + bits.length, stop, later⟩, qm := (its.foldl Item.load q).qm })) := by
  intro its
  induction its with
  | nil =>
    intro pos bits hi ha s q hq hb
    cases hi
    rw [List.nil_append] at hb
    have hb' := hb
    rw [← List.append_assoc, ← code_prefix hc] at hb'
    have hp := vpeek_code s (c := 0x100 + c) (by omega) hb'
    have hs : s = { s with br := ⟨prefix1 ++ (bitsOf 8 c ++ rest), pos, stop, later⟩, qm := q.qm } := by
      rw [← hb, ← hq]
    have hA : ∀ f, 1 ≤ f → extensionAndUserData i f s = (.ok (), s) := by
      intro f hf
      obtain ⟨f, rfl⟩ : ∃ j, f = j + 1 := ⟨f - 1, by omega⟩
      unfold extensionAndUserData
      rw [Go.bind_ok hp, if_neg (by show ¬ 0x100 + c = 0x1B5; omega), if_neg (by show ¬ 0x100 + c = 0x1B2; omega)]
      rfl
    refine ⟨fun f hf => ?_, fun f g hf hg => ?_⟩
    · rw [hA f hf]
      exact Prod.ext rfl hs
    · obtain ⟨f, rfl⟩ : ∃ j, f = j + 1 := ⟨f - 1, by omega⟩
      have : extensionData i (f + 1) s = (.ok (), s) := by
        unfold extensionData
        rw [Go.bind_ok hp, if_neg (by show ¬ 0x100 + c = 0x1B5; omega)]
        rfl
      rw [Go.bind_ok this, hA g hg]
      exact Prod.ext rfl hs
  | cons it its ih =>
    intro pos bits hi ha s q hq hb
    cases hi with
    | @user _ d _ more ok hm =>
      rw [List.append_assoc] at hb
      obtain ⟨t, ht⟩ := items_head hm (bitsOf 8 c ++ rest)
      have hp : VS.lift (BR.peek 32) s = (.ok 0x1B2, s) := by
        refine vpeek_code (pos := pos) (stop := stop) (later := later) s (by decide) (t := d.flatMap (bitsOf 8) ++ (more ++ (prefix1 ++ (bitsOf 8 c ++ rest)))) ?_
        rw [hb]
        simp only [encUser, List.append_assoc]
      have hu : VS.lift userData s = (.ok d, { s with
          br := ⟨more ++ (prefix1 ++ (bitsOf 8 c ++ rest)), pos + (encUser d).length, stop, later⟩ }) := by
        refine lift_ok ?_
        rw [hb, ht]
        exact userData_enc d ok.1 (fun j hj => UserOK.clear ok t j hj) ha
      have hal : (pos + (encUser d).length) % 8 = 0 := by
        have : (d.flatMap (bitsOf 8)).length = 8 * d.length := length_encMat d
        simp only [encUser, List.length_append, length_bitsOf, this]; omega
      obtain ⟨A, -⟩ := ih _ _ hm hal { s with
          br := ⟨more ++ (prefix1 ++ (bitsOf 8 c ++ rest)), pos + (encUser d).length, stop, later⟩ } q hq rfl
      have hA : ∀ f, 2 * (Item.user d :: its).length + 1 ≤ f → extensionAndUserData i f s = (.ok (), { s with
          br := ⟨prefix1 ++ (bitsOf 8 c ++ rest), pos + (encUser d ++ more).length, stop, later⟩,
          qm := ((Item.user d :: its).foldl Item.load q).qm }) := by
        intro f hf
        obtain ⟨f, rfl⟩ : ∃ j, f = j + 1 := ⟨f - 1, by omega⟩
        unfold extensionAndUserData
        rw [Go.bind_ok hp, if_neg (by decide), if_pos rfl, Go.bind_ok hu, A f (by simp only [List.length_cons] at hf; omega)]
        simp only [List.length_append, Nat.add_assoc, List.foldl_cons, Item.load]
      refine ⟨hA, fun f g hf hg => ?_⟩
      obtain ⟨f, rfl⟩ : ∃ j, f = j + 1 := ⟨f - 1, by omega⟩
      have : extensionData i (f + 1) s = (.ok (), s) := by
        unfold extensionData
        rw [Go.bind_ok hp, if_neg (by decide)]
        rfl
      rw [Go.bind_ok this, hA g hg]
    | @ext _ _ _ pad more k ok hu hpad hm =>
      simp only [List.append_assoc] at hb
      obtain ⟨t, ht⟩ := items_head hm (bitsOf 8 c ++ rest)
      have hp : VS.lift (BR.peek 32) s = (.ok 0x1B5, s) := vpeek_code s (by decide) hb
      rw [ht] at hb
      have hst := extStep_run ok hu s k hq hpad hb
      rw [← ht] at hst
      have hal : (pos + 32 + it.body.length + pad.length + 8 * k) % 8 = 0 := by
        rw [hpad]; unfold padding; omega
      obtain ⟨s1, hs1⟩ : ∃ s1 : VS, s1 = { s with br := ⟨more ++ (prefix1 ++ (bitsOf 8 c ++ rest)),
          pos + 32 + it.body.length + pad.length + 8 * k, stop, later⟩, qm := (it.load q).qm } := ⟨_, rfl⟩
      obtain ⟨-, B⟩ := ih _ _ hm hal s1 (it.load q) (by rw [hs1]) (by rw [hs1])
      rw [← hs1] at hst
      have hB : ∀ f g, its.length + 2 ≤ f → 2 * its.length + 1 ≤ g →
          (extensionData i f >>= fun _ => extensionAndUserData i g) s = (.ok (), { s with
            br := ⟨prefix1 ++ (bitsOf 8 c ++ rest), pos + (bitsOf 32 0x1B5 ++ (it.body ++ (pad ++ (zeros (8 * k) ++ more)))).length,
              stop, later⟩, qm := ((it :: its).foldl Item.load q).qm }) := by
        intro f g hf hg
        obtain ⟨f, rfl⟩ : ∃ j, f = j + 1 := ⟨f - 1, by omega⟩
        have e : (extensionData i (f + 1) >>= fun _ => extensionAndUserData i g) s =
            (extensionData i f >>= fun _ => extensionAndUserData i g) s1 := by
          conv => lhs; unfold extensionData
          rw [Go.bind_apply, Go.bind_apply, hp]
          dsimp only
          rw [if_pos rfl, Go.bind_ok hst, Go.bind_apply]
        rw [e, B f g (by omega) hg, hs1]
        simp only [List.length_append, length_bitsOf, zeros, List.length_replicate, Nat.add_assoc, List.foldl_cons]
      have hi1 : i ≠ 1 := by
        cases it with
        | user d => exact absurd rfl (hu d)
        | display h => rw [ok.1]; decide
        | quant h => rw [ok.1]; decide
        | temporal h => rw [ok.1]; decide
      refine ⟨fun f hf => ?_, fun f g hf hg => hB f g hf (by simp only [List.length_cons] at hg; omega)⟩
      simp only [List.length_cons] at hf
      obtain ⟨f, rfl⟩ : ∃ j, f = j + 1 := ⟨f - 1, by omega⟩
      conv => lhs; unfold extensionAndUserData
      rw [Go.bind_ok hp, if_pos rfl, if_pos hi1]
      exact hB f f (by omega) (by omega)

/-- The items of a place are consumed, up to the start code that follows. -/
theorem items_run {i c : Nat} (hc : c < 256) (h1 : c ≠ 0xB5) (h2 : c ≠ 0xB2) {rest : List Bool} {its : List Item}
    {pos : Nat} {bits : List Bool} (h : ItemsCode i pos its bits) (ha : pos % 8 = 0) {s : VS} {q : Mats} (hq : s.qm = q.qm)
    (hb : s.br = ⟨bits ++ (prefix1 ++ (bitsOf 8 c ++ rest)), pos, stop, later⟩) {fuel : Nat}
    (hf : 2 * its.length + 1 ≤ fuel) :
    extensionAndUserData i fuel s = (.ok (), { s with
      br := ⟨prefix1 ++ (bitsOf 8 c ++ rest), pos + bits.length, stop, later⟩, qm := (its.foldl Item.load q).qm }) :=
  (items_both hc h1 h2 rest its pos bits h ha s q hq hb).1 fuel hf

end
end Mpeg.Video
