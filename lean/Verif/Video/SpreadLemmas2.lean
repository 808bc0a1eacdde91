/-
Samples depend on the samples of the reference frames within reach only.
-/
import Verif.Video.SpreadLemmas
set_option linter.all false
namespace Mpeg.Video
open Spec

/-- the same value under a condition -/
def EqIf {α : Type} (P : Prop) (a b : α) : Prop := P → a = b

theorem at_agree {G : Nat → Prop} {p q : Plane} (h : PlaneAgree G p q) (k : Int) : Both (EqIf (∀ j : Nat, (j : Int) = k → G j)) (p.at? k) (q.at? k) := by
  unfold Plane.at?
  rw [h.len]
  split
  · next hk =>
    refine .some fun hg => ?_
    rw [h.same k.toNat (by rw [h.len]; omega) (hg _ (by omega))]
  · exact .none

/-- the indices which a predicted sample reads -/
def McReads (stride : Nat) (k : Int) (hh vh : Bool) (j : Nat) : Prop :=
  ∃ x y : Nat, x ≤ hh.toNat ∧ y ≤ vh.toNat ∧ (j : Int) = k + x + y * stride

theorem sample_agree {G : Nat → Prop} {p q : Plane} (h : PlaneAgree G p q) (stride : Nat) (k : Int) : ∀ hh vh : Bool,
    Both (EqIf (∀ j, McReads stride k hh vh j → G j)) (mcSample p stride k hh vh) (mcSample q stride k hh vh) := by
  have h0 : ∀ hh vh (x y : Nat), x ≤ hh.toNat → y ≤ vh.toNat → ∀ k', k' = k + x + y * stride → ∀ a b : Int,
      EqIf (∀ j : Nat, (j : Int) = k' → G j) a b → EqIf (∀ j, McReads stride k hh vh j → G j) a b := by
    intro hh vh x y hx hy k' hk a b hab hj
    exact hab fun j hj' => hj j ⟨x, y, hx, hy, by rw [hj', hk]⟩
  intro hh vh
  have h00 := fun a b => h0 hh vh 0 0 (by omega) (by omega) k (by omega) a b
  cases hh <;> cases vh
  · have := at_agree h k
    unfold mcSample
    dsimp only
    revert this
    generalize p.at? k = x
    generalize q.at? k = y
    intro hx
    cases hx with
    | none => exact .none
    | some hx => exact .some (h00 _ _ hx)
  · have h01 := fun a b => h0 false true 0 1 (by decide) (by decide) (k + stride) (by omega) a b
    exact both_bind (at_agree h _) fun a b h1 => both_bind (at_agree h _) fun c d h2 => .some fun hj => by
      rw [h00 a b h1 hj, h01 c d h2 hj]
  · have h10 := fun a b => h0 true false 1 0 (by decide) (by decide) (k + 1) (by omega) a b
    exact both_bind (at_agree h _) fun a b h1 => both_bind (at_agree h _) fun c d h2 => .some fun hj => by
      rw [h00 a b h1 hj, h10 c d h2 hj]
  · have h01 := fun a b => h0 true true 0 1 (by decide) (by decide) (k + stride) (by omega) a b
    have h10 := fun a b => h0 true true 1 0 (by decide) (by decide) (k + 1) (by omega) a b
    have h11 := fun a b => h0 true true 1 1 (by decide) (by decide) (k + stride + 1) (by omega) a b
    exact both_bind (at_agree h _) fun a b h1 => both_bind (at_agree h _) fun c d h2 =>
      both_bind (at_agree h _) fun a' b' h3 => both_bind (at_agree h _) fun c' d' h4 => .some fun hj => by
        rw [h00 a b h1 hj, h10 c d h2 hj, h01 a' b' h3 hj, h11 c' d' h4 hj]

/-! ### distances -/

/-- where a sample of a block is written -/
def dest (Y C i addr row : Nat) (il : Bool) (v u : Nat) : Nat :=
  if i < 4 then 16 * row * Y + addr * 16 + (i % 2) * 8 + (if il then (i / 2 % 2) * Y else (i / 2 % 2) * 8 * Y) +
    v * (if il then Y * 2 else Y) + u
  else 8 * row * C + addr * 8 + v * C + u

/-- the component of a block -/
def compOf (i : Nat) : Nat := if i < 4 then 0 else if i = 4 then 1 else 2

theorem scaled_legal {fh fv : Nat} {m : Vec} (hh : mvLegal fh m.h) (hv : mvLegal fv m.v) (i : Nat) :
    mvLegal fh (m.scaled i).h ∧ mvLegal fv (m.scaled i).v := by
  have h1 := mvScale_pos fh
  have h2 := mvScale_pos fv
  unfold mvLegal at *
  unfold Vec.scaled
  split
  · dsimp only; omega
  · exact ⟨hh, hv⟩

theorem half_bound {f : Nat} {v : Int} (h : mvLegal f v) {y : Nat} (hy : y ≤ (decide (v % 2 = 1)).toNat) :
    -(8 * (mvScale f : Int)) ≤ v / 2 + y ∧ v / 2 + y ≤ 8 * (mvScale f : Int) := by
  unfold mvLegal at h
  by_cases hv : v % 2 = 1
  · rw [decide_eq_true hv] at hy
    have : y ≤ 1 := hy
    omega
  · rw [decide_eq_false hv] at hy
    have : y ≤ 0 := hy
    omega

theorem reads_within {fh fv : Nat} {m : Vec} (hh : mvLegal fh m.h) (hv : mvLegal fv m.v) (Y C : Nat) {i addr row : Nat} (il : Bool)
    {v u : Nat} (hv8 : v < 8) {j : Nat}
    (hj : McReads (lineOf Y C (compOf i)) (mcIndex (lineOf Y C (compOf i)) i row addr m + v * (lineOf Y C (compOf i) : Nat) + u)
      (decide ((m.scaled i).h % 2 = 1)) (decide ((m.scaled i).v % 2 = 1)) j) :
    NNear (reach fh fv (lineOf Y C (compOf i))) j (dest Y C i addr row il v u) := by
  obtain ⟨x, y, hx, hy, hj⟩ := hj
  obtain ⟨h1, h2⟩ := scaled_legal hh hv i
  obtain ⟨a1, a2⟩ := half_bound h1 hx
  obtain ⟨b1, b2⟩ := half_bound h2 hy
  generalize hS : lineOf Y C (compOf i) = S at hj ⊢
  have hj : (j : Int) = ((if i < 4 then (row * 16 + (i / 2 % 2) * 8) * S + addr * 16 + (i % 2) * 8 else row * 8 * S + addr * 8 : Nat) : Int)
      + ((m.scaled i).v / 2 + y) * S + ((m.scaled i).h / 2 + x) + v * S + u := by
    rw [hj]
    unfold mcIndex
    dsimp only
    rw [Int.add_mul]
    omega
  generalize (m.scaled i).h / 2 + (x : Int) = X at a1 a2 hj
  generalize (m.scaled i).v / 2 + (y : Int) = V at b1 b2 hj
  have c1 : -(8 * (mvScale fv : Int)) * S ≤ V * S := Int.mul_le_mul_of_nonneg_right b1 (by omega)
  have c2 : V * S ≤ (8 * (mvScale fv : Int)) * S := Int.mul_le_mul_of_nonneg_right b2 (by omega)
  have c3 : (8 * (mvScale fv : Int)) * S = 8 * ((mvScale fv * S : Nat) : Int) := by rw [Int.natCast_mul, Int.mul_assoc]
  have c4 : -(8 * (mvScale fv : Int)) * S = -(8 * ((mvScale fv * S : Nat) : Int)) := by rw [Int.neg_mul, c3]
  rw [c3] at c2
  rw [c4] at c1
  have hr : reach fh fv S = 8 * (mvScale fv * S) + 7 * S + 8 * mvScale fh := by
    unfold reach
    rw [Nat.add_mul, Nat.mul_assoc]
  unfold NNear
  rw [hr]
  generalize mvScale fv * S = P at c1 c2 c3 c4
  generalize V * (S : Int) = W at hj c1 c2
  unfold dest
  by_cases hi : i < 4
  · have hS' : S = Y := by rw [← hS]; unfold compOf lineOf; rw [if_pos hi, if_pos rfl]
    rw [if_pos hi] at hj ⊢
    subst hS'
    have e1 : (row * 16 + i / 2 % 2 * 8) * S = 16 * row * S + (i / 2 % 2) * 8 * S := by rw [Nat.add_mul, Nat.mul_comm row]
    rw [e1] at hj
    generalize 16 * row * S = T at hj ⊢
    generalize i % 2 = w at hj ⊢
    rcases (show i / 2 % 2 = 0 ∨ i / 2 % 2 = 1 by omega) with hq | hq <;> rw [hq] at hj ⊢ <;>
      rcases (show v = 0 ∨ v = 1 ∨ v = 2 ∨ v = 3 ∨ v = 4 ∨ v = 5 ∨ v = 6 ∨ v = 7 by omega) with
        rfl | rfl | rfl | rfl | rfl | rfl | rfl | rfl <;> cases il <;> simp only [if_true, if_false, Bool.false_eq_true] <;> omega
  · rw [if_neg hi] at hj ⊢
    have hS' : S = C := by
      rw [← hS]; unfold compOf lineOf
      rw [if_neg hi, if_neg]
      split <;> decide
    subst hS'
    rw [Nat.mul_comm 8 row]
    have : ((v * S : Nat) : Int) = v * S := by omega
    generalize v * S = vs at *
    omega


/-! ### blocks -/

/-- the sets of samples that have to agree in the past (0) and in the future (1) frame; `fc` are the codes of the vectors -/
def spread (fc : Nat → Nat → Nat) (Y C : Nat) (G : Nat → Nat → Nat → Prop) (c k : Nat) : Prop :=
  farInside (reach (fc 0 0) (fc 0 1) (lineOf Y C c)) (G 0 c) k ∧ farInside (reach (fc 1 0) (fc 1 1) (lineOf Y C c)) (G 1 c) k

theorem predict_agree {Y C : Nat} {G : Nat → Nat → Prop} {f g : Frame} (h : FrameAgree Y C G f g) {fh fv : Nat} {m : Vec}
    (hh : mvLegal fh m.h) (hv : mvLegal fv m.v) (i row addr : Nat) (il : Bool) (v u : Nat) (hv8 : v < 8) :
    Both (EqIf (farInside (reach fh fv (lineOf Y C (compOf i))) (G (compOf i)) (dest Y C i addr row il v u)))
      (mcPredict f i row addr m v u) (mcPredict g i row addr m v u) := by
  have key : ∀ {p q : Plane}, PlaneAgree (G (compOf i)) p q → ∀ S, S = lineOf Y C (compOf i) →
      Both (EqIf (farInside (reach fh fv (lineOf Y C (compOf i))) (G (compOf i)) (dest Y C i addr row il v u)))
        (mcSample p S (mcIndex S i row addr m + v * S + u) (decide ((m.scaled i).h % 2 = 1)) (decide ((m.scaled i).v % 2 = 1)))
        (mcSample q S (mcIndex S i row addr m + v * S + u) (decide ((m.scaled i).h % 2 = 1)) (decide ((m.scaled i).v % 2 = 1))) := by
    rintro p q hp S rfl
    have := sample_agree hp (lineOf Y C (compOf i)) (mcIndex (lineOf Y C (compOf i)) i row addr m + v * (lineOf Y C (compOf i) : Nat) + u)
      (decide ((m.scaled i).h % 2 = 1)) (decide ((m.scaled i).v % 2 = 1))
    revert this
    generalize mcSample p _ _ _ _ = x
    generalize mcSample q _ _ _ _ = y
    intro hx
    cases hx with
    | none => exact .none
    | some hx => exact .some fun hf => hx fun j hj => hf j (reads_within hh hv Y C il hv8 hj)
  unfold mcPredict Frame.plane
  rw [h.yStride.1, h.yStride.2, h.cStride.1, h.cStride.2]
  by_cases h4 : i < 4
  · have hc : compOf i = 0 := if_pos h4
    rw [if_pos h4, if_pos h4]
    exact key (by rw [hc]; exact h.y) Y (by rw [hc]; rfl)
  rw [if_neg h4, if_neg h4]
  by_cases h5 : i = 4
  · have hc : compOf i = 1 := by unfold compOf; rw [if_neg h4, if_pos h5]
    rw [if_pos h5, if_pos h5]
    exact key (by rw [hc]; exact h.cb) C (by rw [hc]; rfl)
  rw [if_neg h5, if_neg h5]
  by_cases h6 : i = 5
  · have hc : compOf i = 2 := by unfold compOf; rw [if_neg h4, if_neg h5]
    rw [if_pos h6, if_pos h6]
    exact key (by rw [hc]; exact h.cr) C (by rw [hc]; rfl)
  rw [if_neg h6, if_neg h6]
  exact .none

/-- references that agree, with the same legal vector -/
structure RefAgree (fc : Nat → Nat) (Y C : Nat) (G : Nat → Nat → Prop) (a b : Frame × Vec) : Prop where
  frame : FrameAgree Y C G a.1 b.1
  vec : a.2 = b.2
  h : mvLegal (fc 0) b.2.h
  v : mvLegal (fc 1) b.2.v

section
variable {fc : Nat → Nat → Nat} {Y C : Nat} {G : Nat → Nat → Nat → Prop}

theorem pel_agree {a a' b b' : Option (Frame × Vec)} (ha : Both (RefAgree (fc 0) Y C (G 0)) a a') (hb : Both (RefAgree (fc 1) Y C (G 1)) b b')
    (i row addr : Nat) (il : Bool) (v u : Nat) (hv8 : v < 8) :
    Both (EqIf (spread fc Y C G (compOf i) (dest Y C i addr row il v u))) (mcPel a b i row addr v u) (mcPel a' b' i row addr v u) := by
  have key : ∀ {r : Nat} {a a' : Frame × Vec}, r = 0 ∨ r = 1 → RefAgree (fc r) Y C (G r) a a' →
      Both (EqIf (spread fc Y C G (compOf i) (dest Y C i addr row il v u))) (mcPredict a.1 i row addr a.2 v u) (mcPredict a'.1 i row addr a'.2 v u) := by
    intro r a a' hr h
    rw [h.vec]
    have := predict_agree h.frame h.h h.v i row addr il v u hv8
    revert this
    generalize mcPredict a.1 i row addr a'.2 v u = x
    generalize mcPredict a'.1 i row addr a'.2 v u = y
    intro hx
    cases hx with
    | none => exact .none
    | some hx => exact .some fun hs => hx (by rcases hr with rfl | rfl; exact hs.1; exact hs.2)
  cases ha with
  | none =>
    cases hb with
    | none => exact .some fun _ => rfl
    | some h => exact key (.inr rfl) h
  | some h =>
    cases hb with
    | none => exact key (.inl rfl) h
    | some h' => exact both_bind (key (.inl rfl) h) fun _ _ h1 => both_bind (key (.inr rfl) h') fun _ _ h2 =>
        Both.some (R := EqIf _) fun hs => by rw [h1 hs, h2 hs]

theorem optAll_agree {P : Nat → Prop} {f g : Nat → Option Int} : ∀ n, (∀ k < n, Both (EqIf (P k)) (f k) (g k)) →
    Both (fun a b => ∀ k, P k → a k = b k) (optAll n f) (optAll n g)
  | 0, _ => .some fun _ _ => rfl
  | n + 1, h => by
    unfold optAll
    have ih := optAll_agree n fun k hk => h k (by omega)
    have hn := h n (by omega)
    revert ih hn
    generalize optAll n f = x
    generalize optAll n g = y
    generalize f n = x'
    generalize g n = y'
    intro ih hn
    cases ih with
    | none => exact .none
    | some ih =>
      cases hn with
      | none => exact .none
      | some hn =>
        refine .some fun k hk => ?_
        show (if k = n then _ else _) = if k = n then _ else _
        split
        · next he => exact hn (he ▸ hk)
        · exact ih k hk

theorem mc_agree {a a' b b' : Option (Frame × Vec)} (ha : Both (RefAgree (fc 0) Y C (G 0)) a a') (hb : Both (RefAgree (fc 1) Y C (G 1)) b b')
    (B : Block) (i row addr : Nat) (il : Bool) :
    Both (fun x y => ∀ k, spread fc Y C G (compOf i) (dest Y C i addr row il (k / 8) (k % 8)) → x k = y k)
      (motionCompensation B a b i row addr) (motionCompensation B a' b' i row addr) := by
  unfold motionCompensation
  refine both_map (optAll_agree 64 fun k hk => pel_agree ha hb i row addr il (k / 8) (k % 8) (by omega)) fun x y h k hk => ?_
  show B k + x k = B k + y k
  rw [h k hk]

theorem write_agree {H : Nat → Prop} {p q : Plane} (h : PlaneAgree H p q) (off n : Nat) {a b : Nat → Nat}
    (hs : ∀ k < n, H (off + k) → a k = b k) : Both (PlaneAgree H) (p.write off n a) (q.write off n b) := by
  unfold Plane.write
  rw [h.len]
  split
  · refine .some ⟨rfl, fun i hi hH => ?_⟩
    show (if off ≤ i ∧ i < off + n then _ else _) = if off ≤ i ∧ i < off + n then _ else _
    split
    · exact hs _ (by omega) (by rw [show off + (i - off) = i by omega]; exact hH)
    · exact h.same i (by rw [h.len]; exact hi) hH
  · exact .none

theorem writeRows_agree {H : Nat → Prop} {a b : Nat → Nat} (base stride : Nat) : ∀ (k y : Nat) {p q : Plane},
    (∀ y' x, x < 8 → H (base + y' * stride + x) → a (y' * 8 + x) = b (y' * 8 + x)) →
    PlaneAgree H p q → Both (PlaneAgree H) (writeRows base stride a k y p) (writeRows base stride b k y q)
  | 0, _, _, _, _, h => .some h
  | k + 1, y, p, q, hs, h => by
    unfold writeRows
    have hw := write_agree h (base + y * stride) 8 (a := fun x => a (y * 8 + x)) (b := fun x => b (y * 8 + x)) fun k hk hH => hs y k hk hH
    revert hw
    generalize p.write (base + y * stride) 8 (fun x => a (y * 8 + x)) = u
    generalize q.write (base + y * stride) 8 (fun x => b (y * 8 + x)) = v
    intro hw
    cases hw with
    | none => exact .none
    | some hw => exact writeRows_agree base stride k (y + 1) hs hw

theorem update_agree {H : Nat → Nat → Prop} {f g : Frame} (h : FrameAgree Y C H f g) (i addr row : Nat) (il : Bool) {a b : Nat → Nat}
    (hs : ∀ k, H (compOf i) (dest Y C i addr row il (k / 8) (k % 8)) → a k = b k) :
    Both (FrameAgree Y C H) (updateFrame i addr row il f a) (updateFrame i addr row il g b) := by
  have hs' : ∀ y x, x < 8 → H (compOf i) (dest Y C i addr row il y x) → a (y * 8 + x) = b (y * 8 + x) := by
    intro y x hx hH
    apply hs
    rw [show (y * 8 + x) / 8 = y by omega, show (y * 8 + x) % 8 = x by omega]
    exact hH
  unfold updateFrame
  rw [h.yStride.1, h.yStride.2, h.cStride.1, h.cStride.2]
  unfold dest at hs'
  by_cases h4 : i < 4
  · have hc : compOf i = 0 := if_pos h4
    simp only [if_pos h4, hc] at hs' ⊢
    exact both_map (writeRows_agree _ _ 8 0 hs' h.y) fun x y hxy => ⟨⟨rfl, rfl⟩, ⟨rfl, rfl⟩, hxy, h.cb, h.cr⟩
  by_cases h5 : i = 4
  · have hc : compOf i = 1 := by unfold compOf; rw [if_neg h4, if_pos h5]
    simp only [if_neg h4, if_pos h5, hc] at hs' ⊢
    exact both_map (writeRows_agree _ _ 8 0 hs' h.cb) fun x y hxy => ⟨⟨rfl, rfl⟩, ⟨rfl, rfl⟩, h.y, hxy, h.cr⟩
  by_cases h6 : i = 5
  · have hc : compOf i = 2 := by unfold compOf; rw [if_neg h4, if_neg h5]
    simp only [if_neg h4, if_neg h5, if_pos h6, hc] at hs' ⊢
    exact both_map (writeRows_agree _ _ 8 0 hs' h.cr) fun x y hxy => ⟨⟨rfl, rfl⟩, ⟨rfl, rfl⟩, h.y, h.cb, hxy⟩
  simp only [if_neg h4, if_neg h5, if_neg h6]
  exact .none

theorem copyRows_agree {H : Nat → Prop} {s s' : Plane} {A : Nat → Prop} (hs : PlaneAgree A s s') (hA : ∀ k, H k → A k) (a b x w : Nat) :
    ∀ (k v : Nat) {p q : Plane}, PlaneAgree H p q → Both (PlaneAgree H) (copyRows a b a b x w s k v p) (copyRows a b a b x w s' k v q)
  | 0, _, _, _, h => .some h
  | k + 1, v, p, q, h => by
    have hw : Both (PlaneAgree H) (p.copyFrom s (a + v * b + x) (a + v * b + x) w) (q.copyFrom s' (a + v * b + x) (a + v * b + x) w) := by
      unfold Plane.copyFrom
      rw [hs.len]
      split
      · next hl => exact write_agree h _ _ fun k hk hH => hs.same _ (by rw [hs.len]; omega) (hA _ hH)
      · exact .none
    unfold copyRows
    revert hw
    generalize p.copyFrom s (a + v * b + x) (a + v * b + x) w = u
    generalize q.copyFrom s' (a + v * b + x) (a + v * b + x) w = u'
    intro hw
    cases hw with
    | none => exact .none
    | some hw => exact copyRows_agree hs hA a b x w k (v + 1) hw

theorem pframe_agree {H A : Nat → Nat → Prop} (hA : ∀ c k, H c k → A c k) {f g : Frame} (h : FrameAgree Y C H f g) {p q : Option Frame}
    (hp : Both (FrameAgree Y C A) p q) (row col n : Nat) :
    Both (FrameAgree Y C H) (pframeCopy row col n f p) (pframeCopy row col n g q) := by
  cases hp with
  | none => exact .none
  | @some a b hp =>
    unfold pframeCopy
    dsimp only
    rw [h.yStride.1, h.cStride.1, hp.yStride.1, hp.cStride.1, h.yStride.2, h.cStride.2, hp.yStride.2, hp.cStride.2, Nat.mul_comm row 16,
      Nat.mul_comm row 8]
    have h1 := copyRows_agree hp.y (hA 0) (16 * row * Y) Y (col * 16) (n * 16) 16 0 h.y
    have h2 := copyRows_agree hp.cb (hA 1) (8 * row * C) C (col * 8) (n * 8) 8 0 h.cb
    have h3 := copyRows_agree hp.cr (hA 2) (8 * row * C) C (col * 8) (n * 8) 8 0 h.cr
    revert h1 h2 h3
    generalize copyRows (16 * row * Y) Y (16 * row * Y) Y (col * 16) (n * 16) a.y 16 0 f.y = x1
    generalize copyRows (16 * row * Y) Y (16 * row * Y) Y (col * 16) (n * 16) b.y 16 0 g.y = y1
    generalize copyRows (8 * row * C) C (8 * row * C) C (col * 8) (n * 8) a.cb 8 0 f.cb = x2
    generalize copyRows (8 * row * C) C (8 * row * C) C (col * 8) (n * 8) b.cb 8 0 g.cb = y2
    generalize copyRows (8 * row * C) C (8 * row * C) C (col * 8) (n * 8) a.cr 8 0 f.cr = x3
    generalize copyRows (8 * row * C) C (8 * row * C) C (col * 8) (n * 8) b.cr 8 0 g.cr = y3
    intro h1 h2 h3
    cases h1 with
    | none => exact .none
    | some h1 =>
    cases h2 with
    | none => exact .none
    | some h2 =>
    cases h3 with
    | none => exact .none
    | some h3 => exact .some ⟨⟨rfl, rfl⟩, ⟨rfl, rfl⟩, h1, h2, h3⟩

theorem spread_self {c k : Nat} (h : spread fc Y C G c k) : G 0 c k ∧ G 1 c k :=
  ⟨h.1 k ⟨by omega, by omega⟩, h.2 k ⟨by omega, by omega⟩⟩

theorem finish_agree {e : PicEnv} {p f : Option Frame} (hp : Both (FrameAgree Y C (G 0)) e.past p) (hf : Both (FrameAgree Y C (G 1)) e.future f)
    {d : MVD} (hd : VecInv e d) (b : Block) (i addr row : Nat) (il : Bool) {g g' : Frame} (h : FrameAgree Y C (spread e.pce.fCode Y C G) g g') :
    Both (FrameAgree Y C (spread e.pce.fCode Y C G)) (finishBlock e d b i addr row il g) (finishBlock (e.refs p f) d b i addr row il g') := by
  unfold finishBlock
  have ha : Both (RefAgree (e.pce.fCode 0) Y C (G 0)) (d.fwdRef e.past) (d.fwdRef p) := by
    unfold MVD.fwdRef
    split
    · exact both_map hp fun x y h => ⟨h, rfl, (hd 0 0 0 (by decide) (by decide)).1, (hd 0 0 1 (by decide) (by decide)).1⟩
    · exact .none
  have hb : Both (RefAgree (e.pce.fCode 1) Y C (G 1)) (d.bwdRef e.future) (d.bwdRef f) := by
    unfold MVD.bwdRef
    split
    · exact both_map hf fun x y h => ⟨h, rfl, (hd 0 1 0 (by decide) (by decide)).1, (hd 0 1 1 (by decide) (by decide)).1⟩
    · exact .none
  have hm := mc_agree (fc := e.pce.fCode) ha hb b i row addr il
  show Both _ _ (match motionCompensation b (d.fwdRef p) (d.bwdRef f) i row addr with
    | none => none
    | some c => updateFrame i addr row il g' c.clamp)
  revert hm
  generalize motionCompensation b (d.fwdRef e.past) (d.bwdRef e.future) i row addr = x
  generalize motionCompensation b (d.fwdRef p) (d.bwdRef f) i row addr = y
  intro hm
  cases hm with
  | none => exact .none
  | some hm => exact update_agree h i addr row il fun k hk => congrArg clamp8 (hm k hk)

theorem respects_agree {e : PicEnv} (he : FCodes e) {p f : Option Frame} (hp : Both (FrameAgree Y C (G 0)) e.past p)
    (hf : Both (FrameAgree Y C (G 1)) e.future f) : Respects (FrameAgree Y C (spread e.pce.fCode Y C G)) (VecInv e) e p f where
  shape g g' h := ⟨h.y.len, h.cb.len, h.cr.len, h.yStride.1.trans h.yStride.2.symm, h.cStride.1.trans h.cStride.2.symm⟩
  finish d hd b i addr row il g g' h := finish_agree hp hf hd b i addr row il h
  copy row col n g g' h := pframe_agree (fun c k h => (spread_self h).1) h hp row col n
  vectors m := keeps_mbVectors he m
  init a b := vecInv_zero
end

end Mpeg.Video
