/-
The reference decoder of RefSpec.lean stays close to the exact decoder of IsoSpec.lean.
-/
import Verif.Video.IsoSpec
import Verif.Video.IdctProps2
import Verif.Video.RefRel
set_option linter.all false
namespace Mpeg.Video
open Spec

/-! ### arithmetic -/

theorem near_mono {b b' m n : Nat} (h : near b m n) (hb : b ≤ b') : near b' m n := ⟨by have := h.1; omega, by have := h.2; omega⟩
theorem near_refl (b m : Nat) : near b m m := ⟨by omega, by omega⟩

theorem near_interp {p q : Nat → Nat → Nat} {b : Nat} (h : ∀ x y, near b (p x y) (q x y)) (x y : Nat) (hh vh : Bool) :
    near (b + 1) (interpolate p x y hh vh) (isoInterpolate q x y hh vh) := by
  have h0 := h x y
  have h1 := h (x + 1) y
  have h2 := h x (y + 1)
  have h3 := h (x + 1) (y + 1)
  unfold near at *
  cases hh <;> cases vh <;> simp only [interpolate, isoInterpolate] <;> omega

theorem near_blend {a a' c c' : Option Nat} {k : Nat} (ha : ∀ u, a = some u → ∃ v, a' = some v ∧ near (k + 1) u v)
    (ha' : a = none → a' = none) (hc : ∀ u, c = some u → ∃ v, c' = some v ∧ near (k + 1) u v) (hc' : c = none → c' = none) :
    near (k + 2) (blend a c) (isoBlend a' c') ∧ (c = none → near (k + 1) (blend a c) (isoBlend a' c')) := by
  cases a with
  | none =>
    rw [ha' rfl]
    cases c with
    | none => rw [hc' rfl]; exact ⟨near_refl _ _, fun _ => near_refl _ _⟩
    | some u =>
      obtain ⟨v, rfl, h⟩ := hc u rfl
      exact ⟨near_mono h (by omega), fun h => by cases h⟩
  | some u =>
    obtain ⟨v, rfl, h⟩ := ha u rfl
    cases c with
    | none => rw [hc' rfl]; exact ⟨near_mono h (by omega), fun _ => h⟩
    | some u' =>
      obtain ⟨v', rfl, h'⟩ := hc u' rfl
      refine ⟨?_, fun h => by cases h⟩
      unfold near at *
      simp only [blend, isoBlend]
      omega

/-- close, or both above the sample range up to rounding -/
def Close (r r' : Int) : Prop := |r - r'| ≤ 1 ∨ (254 ≤ r ∧ r' = 255)

theorem near_clip {r r' : Int} {p p' b : Nat} (hr : Close r r') (hp : near b p p') :
    near (b + 1) (clip (r + p)) (clip (r' + p')) := by
  unfold Close at hr
  rw [abs_le] at hr
  unfold near clip at *
  omega

theorem near_clip_eq {r : Int} {p p' b : Nat} (hp : near b p p') : near b (clip (r + p)) (clip (r + p')) := by
  unfold near clip at *
  omega

/-! ### the inverse DCT -/

theorem round_bounds {t : ℝ} {a b : Int} (h1 : (a : ℝ) ≤ t) (h2 : t ≤ b) : a - 1 ≤ round t ∧ round t ≤ b := by
  have h3 := abs_sub_round t
  rw [abs_le] at h3
  constructor
  · have : ((a - 2 : Int) : ℝ) < (round t : ℝ) := by push_cast; linarith [h3.2]
    have : a - 2 < round t := by exact_mod_cast this
    omega
  · have : (round t : ℝ) < ((b + 1 : Int) : ℝ) := by push_cast; linarith [h3.1]
    have : round t < b + 1 := by exact_mod_cast this
    omega

theorem round_close {t : ℝ} {z : Int} (h : |(z : ℝ) - t| < 1) : |z - round t| ≤ 1 := by
  have h3 := abs_sub_round t
  have h4 : |((z - round t : Int) : ℝ)| < 2 := by
    rw [abs_lt] at h
    rw [abs_le] at h3
    push_cast
    rw [abs_lt]
    constructor <;> linarith [h.1, h.2, h3.1, h3.2]
  have h5 : |z - round t| < 2 := by exact_mod_cast h4
  omega

theorem residual_near {m : MbData} {e : PicEnv} {q i k : Nat} (hk : k < 64) (h : m.coded i = true → Mild (m.block e q i)) :
    Close (m.residual e q i k) (m.isoResidual e q i k) := by
  unfold MbData.residual MbData.isoResidual
  by_cases hc : m.coded i = true
  · rw [if_pos hc, if_pos hc]
    have hy : k / 8 < 8 := by omega
    have hx : k % 8 < 8 := by omega
    show Close (idct (m.block e q i) k) _
    rcases h hc with h | h
    · have h1 := C51_partial (m.block e q i) h _ _ hy hx
      have h2 := h _ hy _ hx
      rw [show 8 * (k / 8) + k % 8 = k by omega] at h1
      generalize idct (m.block e q i) k = z at *
      generalize realIdct (m.block e q i) (k / 8) (k % 8) = t at *
      rw [abs_le] at h2
      have hr := round_bounds (t := t) (a := -255) (b := 255) (by push_cast; linarith [h2.1]) (by push_cast; linarith [h2.2])
      have := round_close h1
      left
      rw [abs_le] at this ⊢
      omega
    · have h1 := C51_intra_partial (m.block e q i) h _ _ hy hx
      have h2 := h _ hy _ hx
      rw [show 8 * (k / 8) + k % 8 = k by omega] at h1
      generalize idct (m.block e q i) k = z at *
      generalize realIdct (m.block e q i) (k / 8) (k % 8) = t at *
      rw [abs_le] at h2
      have hr := round_bounds (t := t) (a := -127) (b := 383) (by push_cast; linarith [h2.1]) (by push_cast; linarith [h2.2])
      have := round_close h1
      unfold Close
      rw [abs_le] at this ⊢
      omega
  · rw [if_neg hc, if_neg hc]; left; simp

theorem residual_uncoded {m : MbData} {e : PicEnv} {q i k : Nat} (h : m.coded i = false) :
    m.residual e q i k = m.isoResidual e q i k := by
  unfold MbData.residual MbData.isoResidual
  rw [if_neg (by simp [h]), if_neg (by simp [h])]

/-! ### prediction -/

/-- a vector component that is halved alike -/
def Halves (m : Int) : Prop := 0 ≤ m ∨ m % 2 = 0

theorem compVec_iso {c : Nat} {m : Int} (h : c ≠ 0 → Halves m) : isoCompVec c m = compVec c m := by
  unfold isoCompVec compVec
  split
  · rfl
  · rename_i hc
    rcases h hc with h | h
    · rw [Int.tdiv_eq_ediv_of_nonneg h]
    · rw [Int.tdiv_eq_ediv_of_dvd (by omega)]

theorem near_predictAt {P Q : Image} {c b : Nat} (h : ∀ x y, near b (P c x y) (Q c x y)) {hv vv : Int}
    (hh : c ≠ 0 → Halves hv) (hv' : c ≠ 0 → Halves vv) (x y : Nat) :
    near (b + 1) (predictAt P hv vv c x y) (isoPredictAt Q hv vv c x y) := by
  unfold predictAt isoPredictAt
  rw [compVec_iso hh, compVec_iso hv']
  exact near_interp h _ _ _ _

/-- references of both decoders -/
def NearRef (c k : Nat) (P Q : Option Image) : Prop :=
  (P = none → Q = none) ∧ ∀ p, P = some p → ∃ q, Q = some q ∧ ∀ x y, near k (p c x y) (q c x y)

/-- states of both decoders -/
structure Twin (c b : Nat) (d d' : DState) : Prop where
  dc : d'.dc = d.dc
  vec : d'.vec = d.vec
  fwd : d'.fwd = d.fwd
  bwd : d'.bwd = d.bwd
  qsc : d'.qsc = d.qsc
  pic : ∀ x y, near b (d.pic c x y) (d'.pic c x y)
  halves : c ≠ 0 → ∀ s t, Halves (d.vec s t)

theorem near_predicted {c b k : Nat} {d d' : DState} {r r' : RefPics} (h : Twin c b d d') (hp : NearRef c k r.past r'.past)
    (hf : NearRef c k r.future r'.future) (x y : Nat) :
    near (k + 2) (d.predicted r c x y) (d'.isoPredicted r' c x y) ∧
    (d.bwd = false → near (k + 1) (d.predicted r c x y) (d'.isoPredicted r' c x y)) ∧
    (d.fwd = false → d.bwd = false → d.predicted r c x y = 0 ∧ d'.isoPredicted r' c x y = 0) := by
  unfold DState.predicted DState.isoPredicted
  rw [h.vec, h.fwd, h.bwd]
  have ha : ∀ (o : Bool) (R R' : Option Image) (s : Nat), NearRef c k R R' →
      (∀ u, (if o then R.map fun P => predictAt P (d.vec s 0) (d.vec s 1) c x y else none) = some u →
        ∃ v, (if o then R'.map fun P => isoPredictAt P (d.vec s 0) (d.vec s 1) c x y else none) = some v ∧ near (k + 1) u v) ∧
      ((if o then R.map fun P => predictAt P (d.vec s 0) (d.vec s 1) c x y else none) = none →
        (if o then R'.map fun P => isoPredictAt P (d.vec s 0) (d.vec s 1) c x y else none) = none) := by
    intro o R R' s hR
    cases o with
    | false => exact ⟨fun u h => (by cases h), fun _ => rfl⟩
    | true =>
      cases R with
      | none => rw [hR.1 rfl]; exact ⟨fun u h => (by cases h), fun _ => rfl⟩
      | some p =>
        obtain ⟨q, rfl, hq⟩ := hR.2 p rfl
        refine ⟨fun u hu => ?_, fun h => by cases h⟩
        simp only [if_true, Option.map_some, Option.some.injEq] at hu
        subst hu
        exact ⟨_, rfl, near_predictAt hq (fun hc => h.halves hc _ _) (fun hc => h.halves hc _ _) x y⟩
  obtain ⟨a1, a2⟩ := ha d.fwd r.past r'.past 0 hp
  obtain ⟨b1, b2⟩ := ha d.bwd r.future r'.future 1 hf
  obtain ⟨n1, n2⟩ := near_blend a1 a2 b1 b2
  refine ⟨n1, fun hb => n2 (by rw [hb]; rfl), fun hf hb => ?_⟩
  rw [hf, hb]
  exact ⟨rfl, rfl⟩

/-! ### macroblocks -/

/-- what pictures of type `pct` may be off, if their references are `k` off -/
def Budget (pct k b : Nat) : Prop := 1 ≤ b ∧ (pct ≠ 1 → k + 2 ≤ b) ∧ (pct = 3 → k + 3 ≤ b)

theorem twin_skip {c b k row : Nat} {e : PicEnv} {d d' : DState} {r r' : RefPics} {a : Option Nat} {incr : Nat}
    (h : Twin c b d d') (hp : NearRef c k r.past r'.past) (hf : NearRef c k r.future r'.future)
    (hb : Budget e.ph.pictureCodingType k b) : Twin c b (d.skip e r row a incr) (d'.isoSkip e r' row a incr) := by
  unfold DState.skip DState.isoSkip
  split
  · exact h
  · refine ⟨rfl, ?_, h.fwd, h.bwd, h.qsc, ?_, ?_⟩
    · dsimp only; rw [h.vec]
    · cases a with
      | none => exact h.pic
      | some a =>
        intro x y
        dsimp only
        unfold DState.skipPic DState.isoSkipPic
        split
        · split
          · rename_i h2
            cases hr : r.past with
            | none => rw [hp.1 hr]; exact near_refl _ _
            | some p =>
              obtain ⟨q, hq, hn⟩ := hp.2 p hr
              rw [hq]
              have := hb.2.1 (by omega)
              exact near_mono (hn x y) (by omega)
          · split
            · rename_i h3
              have := hb.2.2 h3
              exact near_mono (near_predicted h hp hf x y).1 (by omega)
            · exact h.pic x y
        · exact h.pic x y
    · intro hc s t
      dsimp only
      split
      · exact .inl (Int.le_refl _)
      · exact h.halves hc s t

theorem twin_begin {c b : Nat} {e : PicEnv} {d d' : DState} (t : MacroblockType) (h : Twin c b d d') :
    Twin c b (d.begin e t) (d'.begin e t) := by
  unfold DState.begin
  refine ⟨?_, ?_, h.fwd, h.bwd, h.qsc, h.pic, ?_⟩
  · dsimp only; rw [h.dc]
  · dsimp only; rw [h.vec]
  · intro hc s t
    dsimp only
    split
    · exact .inl (Int.le_refl _)
    · exact h.halves hc s t

theorem twin_param {c b : Nat} {e : PicEnv} {d d' : DState} {m : MbData} (h : Twin c b d d')
    (hm : c ≠ 0 → ∀ s t, Halves (m.vec s t)) : Twin c b (d.param e m) (d'.param e m) := by
  unfold DState.param
  refine ⟨h.dc, ?_, rfl, rfl, ?_, h.pic, ?_⟩
  · dsimp only; rw [h.vec]
  · dsimp only; rw [h.qsc]
  · intro hc s t
    dsimp only
    split
    · exact hm hc s t
    · exact h.halves hc s t

theorem isoIndex_lt (dct : Bool) (c x y : Nat) : indexAt dct c x y < 64 := by
  unfold indexAt lumaIndex
  split
  · cases dct <;> simp <;> omega
  · omega

theorem isoBlock_lt (dct : Bool) (c x y : Nat) (hc : c < 3) : blockAt dct c x y < 6 := by
  unfold blockAt lumaBlock
  split
  · cases dct <;> simp <;> omega
  · omega

theorem twin_recon {c b k row a : Nat} {e : PicEnv} {d d' : DState} {r r' : RefPics} {m : MbData} (hc : c < 3) (h : Twin c b d d')
    (hp : NearRef c k r.past r'.past) (hf : NearRef c k r.future r'.future) (hb : Budget e.ph.pictureCodingType k b)
    (hd : Dirs e.ph.pictureCodingType d) (hm : ∀ i < 6, m.coded i = true → Mild (m.block e d.qsc i)) :
    Twin c b (d.recon e r row a m) (d'.isoRecon e r' row a m) := by
  unfold DState.recon DState.isoRecon
  refine ⟨?_, h.vec, h.fwd, h.bwd, h.qsc, ?_, h.halves⟩
  · dsimp only; rw [h.dc]
  · intro x y
    dsimp only
    split
    · rw [h.qsc]
      have hr := residual_near (q := d.qsc) (isoIndex_lt m.dct c x y) (hm _ (isoBlock_lt m.dct c x y hc))
      obtain ⟨n1, n2, n3⟩ := near_predicted h hp hf x y
      by_cases h3 : e.ph.pictureCodingType = 3
      · exact near_mono (near_clip hr n1) (hb.2.2 h3)
      · have hbw : d.bwd = false := by
          cases hx : d.bwd with
          | false => rfl
          | true => exact absurd (hd.2 hx) h3
        by_cases h1 : e.ph.pictureCodingType = 1
        · have hfw : d.fwd = false := by
            cases hx : d.fwd with
            | false => rfl
            | true => exact absurd h1 (hd.1 hx)
          obtain ⟨e1, e2⟩ := n3 hfw hbw
          rw [e1, e2]
          exact near_mono (near_clip (b := 0) hr (near_refl _ _)) hb.1
        · exact near_mono (near_clip hr (n2 hbw)) (hb.2.1 h1)
    · exact h.pic x y

end Mpeg.Video
