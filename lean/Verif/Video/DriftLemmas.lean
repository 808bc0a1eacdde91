/-
Two decoders on the same bits with different reference frames: samples and macroblocks.
-/
import Verif.Video.DriftSpec
import Verif.Video.StreamLemmas
import Verif.Video.NearLemmas2
import Verif.Video.ShapeLemmas
set_option linter.all false
namespace Mpeg
open Video.Spec

/-! ### computations in step -/

/-- from states related by `R`: the same outcome, results related by `Q`, again states related by `R` -/
def Go.Step {σ α : Type} (R : σ → σ → Prop) (Q : α → α → Prop) (m m' : Go σ α) : Prop :=
  ∀ s s', R s s' → SameRes Q (m s).1 (m' s').1 ∧ R (m s).2 (m' s').2

namespace Go.Step
variable {σ α β : Type} {R : σ → σ → Prop} {Q : α → α → Prop} {P : β → β → Prop}
theorem pure {a b : α} (h : Q a b) : Go.Step R Q (Pure.pure a) (Pure.pure b) := fun _ _ hr => ⟨.ok h, hr⟩
theorem throw (e : Err) : Go.Step R Q (Go.throw e) (Go.throw e) := fun _ _ hr => ⟨.err e, hr⟩
theorem panic : Go.Step R Q Go.panic Go.panic := fun _ _ hr => ⟨.panic, hr⟩
theorem hang : Go.Step R Q Go.hang Go.hang := fun _ _ hr => ⟨.hang, hr⟩
theorem modify {f g : σ → σ} (h : ∀ s t, R s t → R (f s) (g t)) : Go.Step R Eq (Go.modify f) (Go.modify g) :=
  fun s t hr => ⟨.ok rfl, h s t hr⟩
theorem handle {m m' : Go σ α} {f f' : α → Go σ β} {g g' : Err → Go σ β} (hm : Go.Step R Q m m')
    (hf : ∀ a b, Q a b → Go.Step R P (f a) (f' b)) (hg : ∀ e, Go.Step R P (g e) (g' e)) :
    Go.Step R P (Near.handle m f g) (Near.handle m' f' g') := by
  intro s t hr
  obtain ⟨h1, h2⟩ := hm s t hr
  unfold Near.handle
  cases hx : m s with | mk r u => cases hy : m' t with | mk r' u' =>
  rw [hx, hy] at h1 h2
  cases h1 with
  | ok h => exact hf _ _ h _ _ h2
  | err e => exact hg e _ _ h2
  | panic => exact ⟨.panic, h2⟩
  | hang => exact ⟨.hang, h2⟩
theorem bind {m m' : Go σ α} {f f' : α → Go σ β} (hm : Go.Step R Q m m') (hf : ∀ a b, Q a b → Go.Step R P (f a) (f' b)) :
    Go.Step R P (m >>= f) (m' >>= f') := by
  have e : ∀ (m : Go σ α) (f : α → Go σ β), m >>= f = Near.handle m f Go.throw := by
    intro m f
    funext s
    rw [Go.bind_apply]
    unfold Near.handle
    cases m s with | mk r u => cases r <;> rfl
  rw [e, e]
  exact handle hm hf fun e => throw e
/-- the same result -/
theorem bindEq {m m' : Go σ α} {f f' : α → Go σ β} (hm : Go.Step R Eq m m') (hf : ∀ a, Go.Step R P (f a) (f' a)) :
    Go.Step R P (m >>= f) (m' >>= f') := bind hm fun a b h => by cases h; exact hf a
theorem ite {c : Prop} [Decidable c] {m m' n n' : Go σ α} (h : Go.Step R Q m m') (h' : Go.Step R Q n n') :
    Go.Step R Q (if c then m else n) (if c then m' else n') := by split <;> assumption
theorem opt {c : Bool} {d : α} {m m' : Go σ α} (h : Go.Step R Eq m m') : Go.Step R Eq (Go.opt c d m) (Go.opt c d m') := by
  unfold Go.opt; exact ite h (pure rfl)
theorem check {c : Bool} {e : Err} : Go.Step R Eq (Go.check c e) (Go.check c e) := by
  unfold Go.check; exact ite (pure rfl) (throw e)
theorem getBind {f f' : σ → Go σ β} (h : ∀ s t, R s t → Go.Step R P (f s) (f' t)) :
    Go.Step R P (Go.get >>= f) (Go.get >>= f') := by
  intro s t hr
  rw [Go.bind_ok (Go.get_apply s), Go.bind_ok (Go.get_apply t)]
  exact h s t hr s t hr
theorem byState {f f' : σ → Go σ β} (h : ∀ s t, R s t → Go.Step R P (f s) (f' t)) :
    Go.Step R P (fun s => f s s) (fun s => f' s s) := fun s t hr => h s t hr s t hr
theorem ignoreErr {m m' : Go σ α} (h : Go.Step R Q m m') : Go.Step R Eq (Go.ignoreErr m) (Go.ignoreErr m') := by
  have e : ∀ m : Go σ α, Go.ignoreErr m = Near.handle m (fun _ => Pure.pure ()) fun _ => Pure.pure () := by
    intro m
    funext s
    unfold Go.ignoreErr Near.handle
    cases m s with | mk r u => cases r <;> rfl
  rw [e, e]
  exact handle h (fun _ _ _ => pure rfl) fun _ => pure rfl
theorem orPanic {a b : Option α} (h : Both Q a b) : Go.Step R Q (Video.orPanic a) (Video.orPanic b) := by
  cases h with
  | none => exact panic
  | some h => exact pure h
end Go.Step

theorem sameRes_eq {α : Type} : ∀ {a b : Res α}, SameRes Eq a b → a = b
  | _, _, .ok rfl => rfl
  | _, _, .err _ => rfl
  | _, _, .panic => rfl
  | _, _, .hang => rfl
theorem sameRes_refl {α : Type} : ∀ a : Res α, SameRes Eq a a
  | .ok _ => .ok rfl
  | .err e => .err e
  | .panic => .panic
  | .hang => .hang

namespace Video

/-! ### samples -/

/-- integers that differ by at most `d` -/
def INear (d : Nat) (a b : Int) : Prop := a ≤ b + d ∧ b ≤ a + d

theorem at_near {d : Nat} {p q : Plane} (h : PlaneNear d p q) (k : Int) : Both (INear d) (p.at? k) (q.at? k) := by
  unfold Plane.at?
  rw [h.len]
  split
  · next hk =>
    have := h.near k.toNat (by rw [h.len]; omega)
    refine .some ?_
    unfold NNear at this
    unfold INear
    omega
  · exact .none

theorem both_bind {α β : Type} {R : α → α → Prop} {Q : β → β → Prop} {a b : Option α} {f g : α → Option β} (h : Both R a b)
    (hf : ∀ x y, R x y → Both Q (f x) (g y)) : Both Q (a >>= f) (b >>= g) := by
  cases h with
  | none => exact .none
  | some h => exact hf _ _ h

theorem sample_near {d : Nat} {p q : Plane} (h : PlaneNear d p q) (stride : Nat) (k : Int) : ∀ hh vh : Bool,
    Both (INear d) (mcSample p stride k hh vh) (mcSample q stride k hh vh)
  | false, false => at_near h k
  | true, false => both_bind (at_near h _) fun _ _ h1 => both_bind (at_near h _) fun _ _ h2 => .some (by unfold INear at *; omega)
  | false, true => both_bind (at_near h _) fun _ _ h1 => both_bind (at_near h _) fun _ _ h2 => .some (by unfold INear at *; omega)
  | true, true => both_bind (at_near h _) fun _ _ h1 => both_bind (at_near h _) fun _ _ h2 =>
      both_bind (at_near h _) fun _ _ h3 => both_bind (at_near h _) fun _ _ h4 => .some (by unfold INear at *; omega)

/-- the bound for block `i` -/
def blockD (D : Nat → Nat) (i : Nat) : Nat := if i < 4 then D 0 else if i = 4 then D 1 else D 2

theorem predict_near {D : Nat → Nat} {f g : Frame} (h : FrameNear D f g) (i row addr : Nat) (m : Vec) (v u : Nat) :
    Both (INear (blockD D i)) (mcPredict f i row addr m v u) (mcPredict g i row addr m v u) := by
  unfold mcPredict Frame.plane blockD
  rw [h.yStride, h.cStride]
  split
  · exact sample_near h.y ..
  split
  · exact sample_near h.cb ..
  split
  · exact sample_near h.cr ..
  · exact .none

/-- near references with the same vector -/
def RefNear (D : Nat → Nat) (a b : Frame × Vec) : Prop := FrameNear D a.1 b.1 ∧ a.2 = b.2

theorem pel_near {D : Nat → Nat} {a a' b b' : Option (Frame × Vec)} (ha : Both (RefNear D) a a') (hb : Both (RefNear D) b b')
    (i row addr v u : Nat) : Both (INear (blockD D i)) (mcPel a b i row addr v u) (mcPel a' b' i row addr v u) := by
  cases ha with
  | none =>
    cases hb with
    | none => exact .some ⟨by omega, by omega⟩
    | some h => show Both _ (mcPredict _ _ _ _ _ _ _) (mcPredict _ _ _ _ _ _ _); rw [h.2]; exact predict_near h.1 ..
  | some h =>
    cases hb with
    | none => show Both _ (mcPredict _ _ _ _ _ _ _) (mcPredict _ _ _ _ _ _ _); rw [h.2]; exact predict_near h.1 ..
    | some h' =>
      unfold mcPel
      dsimp only
      rw [h.2, h'.2]
      exact both_bind (predict_near h.1 ..) fun _ _ h1 => both_bind (predict_near h'.1 ..) fun _ _ h2 =>
        .some (by unfold INear at *; omega)

/-- near blocks -/
def BNear (d : Nat) (a b : Nat → Int) : Prop := ∀ k, INear d (a k) (b k)

theorem optAll_near {d : Nat} {f g : Nat → Option Int} (h : ∀ k, Both (INear d) (f k) (g k)) : ∀ n,
    Both (BNear d) (optAll n f) (optAll n g)
  | 0 => .some fun _ => ⟨by omega, by omega⟩
  | n + 1 => by
    unfold optAll
    cases hx : optAll n f <;> cases hy : optAll n g <;> have ih := optAll_near h n <;> rw [hx, hy] at ih <;> cases ih
    · exact .none
    · next ih =>
      have hn := h n
      cases hx' : f n <;> cases hy' : g n <;> rw [hx', hy'] at hn <;> cases hn
      · exact .none
      · next hn =>
        refine .some fun k => ?_
        show INear d (if k = n then _ else _) (if k = n then _ else _)
        split
        · exact hn
        · exact ih k

theorem mc_near {D : Nat → Nat} {a a' b b' : Option (Frame × Vec)} (ha : Both (RefNear D) a a') (hb : Both (RefNear D) b b')
    (B : Block) (i row addr : Nat) :
    Both (BNear (blockD D i)) (motionCompensation B a b i row addr) (motionCompensation B a' b' i row addr) := by
  unfold motionCompensation
  have := optAll_near (fun k => pel_near ha hb i row addr (k / 8) (k % 8)) 64
  revert this
  generalize optAll 64 (fun k => mcPel a b i row addr (k / 8) (k % 8)) = x
  generalize optAll 64 (fun k => mcPel a' b' i row addr (k / 8) (k % 8)) = y
  intro h
  cases h with
  | none => exact .none
  | some h =>
    refine .some fun k => ?_
    have := h k
    unfold INear at *
    dsimp only
    omega

theorem clamp_near {d : Nat} {a b : Int} (h : INear d a b) : NNear d (clamp8 a) (clamp8 b) := by
  unfold INear at h
  unfold NNear clamp8
  split <;> split <;> (try split) <;> (try split) <;> omega

theorem write_near {d : Nat} {p q : Plane} (h : PlaneNear d p q) (off n : Nat) {a b : Nat → Nat}
    (hs : ∀ k < n, NNear d (a k) (b k)) : Both (PlaneNear d) (p.write off n a) (q.write off n b) := by
  unfold Plane.write
  rw [h.len]
  split
  · refine .some ⟨rfl, fun i hi => ?_⟩
    show NNear d (if off ≤ i ∧ i < off + n then _ else _) (if off ≤ i ∧ i < off + n then _ else _)
    split
    · exact hs _ (by omega)
    · exact h.near i (by rw [h.len]; exact hi)
  · exact .none

theorem writeRows_near {d : Nat} {a b : Nat → Nat} (hs : ∀ k, NNear d (a k) (b k)) (base stride : Nat) : ∀ (k y : Nat) {p q : Plane},
    PlaneNear d p q → Both (PlaneNear d) (writeRows base stride a k y p) (writeRows base stride b k y q)
  | 0, _, _, _, h => .some h
  | k + 1, y, p, q, h => by
    unfold writeRows
    have hw := write_near h (base + y * stride) 8 (a := fun x => a (y * 8 + x)) (b := fun x => b (y * 8 + x)) fun k _ => hs _
    revert hw
    generalize p.write (base + y * stride) 8 (fun x => a (y * 8 + x)) = u
    generalize q.write (base + y * stride) 8 (fun x => b (y * 8 + x)) = v
    intro hw
    cases hw with
    | none => exact .none
    | some hw => exact writeRows_near hs base stride k (y + 1) hw

theorem both_map {α β : Type} {R : α → α → Prop} {Q : β → β → Prop} {a b : Option α} {f g : α → β} (h : Both R a b)
    (hf : ∀ x y, R x y → Q (f x) (g y)) : Both Q (a.map f) (b.map g) := by
  cases h with
  | none => exact .none
  | some h => exact .some (hf _ _ h)

theorem update_near {D : Nat → Nat} {f g : Frame} (h : FrameNear D f g) (i addr row : Nat) (il : Bool) {a b : Nat → Nat}
    (hs : ∀ k, NNear (blockD D i) (a k) (b k)) : Both (FrameNear D) (updateFrame i addr row il f a) (updateFrame i addr row il g b) := by
  unfold updateFrame
  unfold blockD at hs
  rw [h.yStride, h.cStride]
  split
  · next hi =>
    rw [if_pos hi] at hs
    exact both_map (writeRows_near hs _ _ 8 0 h.y) fun x y hxy => ⟨rfl, rfl, hxy, h.cb, h.cr⟩
  next hi =>
  rw [if_neg hi] at hs
  split
  · next hi =>
    rw [if_pos hi] at hs
    exact both_map (writeRows_near hs _ _ 8 0 h.cb) fun x y hxy => ⟨rfl, rfl, h.y, hxy, h.cr⟩
  next hi =>
  rw [if_neg hi] at hs
  split
  · exact both_map (writeRows_near hs _ _ 8 0 h.cr) fun x y hxy => ⟨rfl, rfl, h.y, h.cb, hxy⟩
  · exact .none

theorem copyRows_near {d : Nat} {s s' : Plane} (hs : PlaneNear d s s') (a b c e x w : Nat) : ∀ (k v : Nat) {p q : Plane},
    PlaneNear d p q → Both (PlaneNear d) (copyRows a b c e x w s k v p) (copyRows a b c e x w s' k v q)
  | 0, _, _, _, h => .some h
  | k + 1, v, p, q, h => by
    have hw : Both (PlaneNear d) (p.copyFrom s (a + v * b + x) (c + v * e + x) w) (q.copyFrom s' (a + v * b + x) (c + v * e + x) w) := by
      unfold Plane.copyFrom
      rw [hs.len]
      split
      · next hl => exact write_near h _ _ fun k hk => hs.near _ (by rw [hs.len]; omega)
      · exact .none
    unfold copyRows
    revert hw
    generalize p.copyFrom s (a + v * b + x) (c + v * e + x) w = u
    generalize q.copyFrom s' (a + v * b + x) (c + v * e + x) w = u'
    intro hw
    cases hw with
    | none => exact .none
    | some hw => exact copyRows_near hs a b c e x w k (v + 1) hw

theorem pframe_near {D : Nat → Nat} {f g : Frame} (h : FrameNear D f g) {p q : Option Frame} (hp : Both (FrameNear D) p q) (row col n : Nat) :
    Both (FrameNear D) (pframeCopy row col n f p) (pframeCopy row col n g q) := by
  cases hp with
  | none => exact .none
  | @some a b hp =>
    unfold pframeCopy
    dsimp only
    rw [h.yStride, h.cStride, hp.yStride, hp.cStride]
    have h1 := copyRows_near hp.y (16 * row * g.yStride) g.yStride (row * 16 * b.yStride) b.yStride (col * 16) (n * 16) 16 0 h.y
    have h2 := copyRows_near hp.cb (8 * row * g.cStride) g.cStride (row * 8 * b.cStride) b.cStride (col * 8) (n * 8) 8 0 h.cb
    have h3 := copyRows_near hp.cr (8 * row * g.cStride) g.cStride (row * 8 * b.cStride) b.cStride (col * 8) (n * 8) 8 0 h.cr
    revert h1 h2 h3
    generalize copyRows (16 * row * g.yStride) g.yStride (row * 16 * b.yStride) b.yStride (col * 16) (n * 16) a.y 16 0 f.y = x1
    generalize copyRows (16 * row * g.yStride) g.yStride (row * 16 * b.yStride) b.yStride (col * 16) (n * 16) b.y 16 0 g.y = y1
    generalize copyRows (8 * row * g.cStride) g.cStride (row * 8 * b.cStride) b.cStride (col * 8) (n * 8) a.cb 8 0 f.cb = x2
    generalize copyRows (8 * row * g.cStride) g.cStride (row * 8 * b.cStride) b.cStride (col * 8) (n * 8) b.cb 8 0 g.cb = y2
    generalize copyRows (8 * row * g.cStride) g.cStride (row * 8 * b.cStride) b.cStride (col * 8) (n * 8) a.cr 8 0 f.cr = x3
    generalize copyRows (8 * row * g.cStride) g.cStride (row * 8 * b.cStride) b.cStride (col * 8) (n * 8) b.cr 8 0 g.cr = y3
    intro h1 h2 h3
    cases h1 with
    | none => exact .none
    | some h1 =>
    cases h2 with
    | none => exact .none
    | some h2 =>
    cases h3 with
    | none => exact .none
    | some h3 => exact .some ⟨rfl, rfl, h1, h2, h3⟩

/-! ### macroblocks -/

/-- environments that are the same except for the reference frames -/
structure EnvNear (D : Nat → Nat) (e : PicEnv) (p f : Option Frame) : Prop where
  past : Both (FrameNear D) e.past p
  future : Both (FrameNear D) e.future f

section
variable {D : Nat → Nat} {e : PicEnv} {p f : Option Frame}

theorem fwd_near (he : EnvNear D e p f) (d : MVD) : Both (RefNear D) (d.fwdRef e.past) (d.fwdRef p) := by
  unfold MVD.fwdRef
  split
  · exact both_map he.past fun x y h => ⟨h, rfl⟩
  · exact .none
theorem bwd_near (he : EnvNear D e p f) (d : MVD) : Both (RefNear D) (d.bwdRef e.future) (d.bwdRef f) := by
  unfold MVD.bwdRef
  split
  · exact both_map he.future fun x y h => ⟨h, rfl⟩
  · exact .none

theorem finish_near (he : EnvNear D e p f) (d : MVD) (b : Block) (i addr row : Nat) (il : Bool) {g g' : Frame} (h : FrameNear D g g') :
    Both (FrameNear D) (finishBlock e d b i addr row il g) (finishBlock (e.refs p f) d b i addr row il g') := by
  unfold finishBlock
  have hm := mc_near (fwd_near he d) (bwd_near he d) b i row addr
  show Both _ _ (match motionCompensation b (d.fwdRef p) (d.bwdRef f) i row addr with
    | none => none
    | some c => updateFrame i addr row il g' c.clamp)
  revert hm
  generalize motionCompensation b (d.fwdRef e.past) (d.bwdRef e.future) i row addr = x
  generalize motionCompensation b (d.fwdRef p) (d.bwdRef f) i row addr = y
  intro hm
  cases hm with
  | none => exact .none
  | some hm => exact update_near h i addr row il fun k => clamp_near (hm k)

theorem bcopyBlocks_near (he : EnvNear D e p f) (d : MVD) (addr row : Nat) : ∀ (k : Nat) {g g' : Frame}, FrameNear D g g' →
    Both (FrameNear D) (bcopyBlocks e d addr row k g) (bcopyBlocks (e.refs p f) d addr row k g')
  | 0, _, _, h => .some h
  | k + 1, g, g', h => by
    have hm := finish_near he d Block.zero (5 - k) addr row false h
    cases hx : finishBlock e d Block.zero (5 - k) addr row false g with
    | none =>
      cases hy : finishBlock (e.refs p f) d Block.zero (5 - k) addr row false g' with
      | none => rw [bcopyBlocks_none hx, bcopyBlocks_none hy]; exact .none
      | some b => rw [hx, hy] at hm; cases hm
    | some a =>
      cases hy : finishBlock (e.refs p f) d Block.zero (5 - k) addr row false g' with
      | none => rw [hx, hy] at hm; cases hm
      | some b =>
        rw [hx, hy] at hm
        rw [bcopyBlocks_step hx, bcopyBlocks_step hy]
        cases hm with
        | some hm => exact bcopyBlocks_near he d addr row k hm

theorem bframe_near (he : EnvNear D e p f) (d : MVD) (row : Nat) : ∀ (n addr : Nat) {g g' : Frame}, FrameNear D g g' →
    Both (FrameNear D) (bframeCopy e d row addr n g) (bframeCopy (e.refs p f) d row addr n g')
  | 0, _, _, _, h => .some h
  | n + 1, addr, g, g', h => by
    have hm := bcopyBlocks_near he d addr row 6 h
    cases hx : bcopyBlocks e d addr row 6 g with
    | none =>
      cases hy : bcopyBlocks (e.refs p f) d addr row 6 g' with
      | none => rw [bframeCopy_none hx, bframeCopy_none hy]; exact .none
      | some b => rw [hx, hy] at hm; cases hm
    | some a =>
      cases hy : bcopyBlocks (e.refs p f) d addr row 6 g' with
      | none => rw [hx, hy] at hm; cases hm
      | some b =>
        rw [hx, hy] at hm
        rw [bframeCopy_step hx, bframeCopy_step hy]
        cases hm with
        | some hm => exact bframe_near he d row n (addr + 1) hm

/-- the same state of the slice, near frames -/
structure MbNear (D : Nat → Nat) (s t : MB) : Prop where
  br : s.br = t.br
  dcp : s.dcp = t.dcp
  mvd : s.mvd = t.mvd
  qsc : s.qsc = t.qsc
  frame : FrameNear D s.frame t.frame

theorem step_mlift {α : Type} (m : Go BR α) : Go.Step (MbNear D) Eq (MB.lift m) (MB.lift m) := by
  intro s t h
  unfold MB.lift
  rw [h.br]
  exact ⟨sameRes_refl _, ⟨rfl, h.dcp, h.mvd, h.qsc, h.frame⟩⟩

theorem step_setFrame {g g' : Frame} (h : FrameNear D g g') :
    Go.Step (MbNear D) Eq (Go.modify fun s : MB => { s with frame := g }) (Go.modify fun s : MB => { s with frame := g' }) :=
  .modify fun s t hr => ⟨hr.br, hr.dcp, hr.mvd, hr.qsc, h⟩

theorem step_copySkipped (he : EnvNear D e p f) (row : Nat) (addr : Option Nat) (incr : Nat) :
    Go.Step (MbNear D) Eq (copySkipped e row addr incr) (copySkipped (e.refs p f) row addr incr) := by
  intro s t hr
  unfold copySkipped
  cases addr with
  | none => exact ⟨.ok rfl, hr⟩
  | some a =>
    by_cases h1 : 1 < incr
    · simp only [if_pos h1]
      have hpc : (e.refs p f).ph = e.ph := rfl
      rw [hpc]
      by_cases h2 : e.ph.pictureCodingType = pFrame
      · simp only [if_pos h2]
        exact Go.Step.bind (.orPanic (pframe_near hr.frame he.past row (a + 1) (incr - 1))) (fun _ _ h => step_setFrame h) s t hr
      · simp only [if_neg h2]
        by_cases h3 : e.ph.pictureCodingType = bFrame
        · simp only [if_pos h3]
          refine Go.Step.bind (.orPanic ?_) (fun _ _ h => step_setFrame h) s t hr
          rw [hr.mvd]
          exact bframe_near he t.mvd row (incr - 1) (a + 1) hr.frame
        · simp only [if_neg h3]
          exact ⟨.ok rfl, hr⟩
    · simp only [if_neg h1]
      exact ⟨.ok rfl, hr⟩

theorem step_motionVectorPart (info : MvInfo) (r s t : Nat) :
    Go.Step (MbNear D) Eq (motionVectorPart e info r s t) (motionVectorPart e info r s t) :=
  .bindEq (step_mlift _) fun _ => .ite .panic (.modify fun s t hr => by rw [hr.mvd]; exact ⟨hr.br, hr.dcp, rfl, hr.qsc, hr.frame⟩)
theorem step_motionVector (info : MvInfo) (r s : Nat) :
    Go.Step (MbNear D) Eq (motionVector e info r s) (motionVector e info r s) :=
  .bindEq (step_motionVectorPart _ _ _ _) fun _ => step_motionVectorPart _ _ _ _
theorem step_motionVectors (s : Nat) (m : Mode) : Go.Step (MbNear D) Eq (motionVectors e s m) (motionVectors e s m) := by
  unfold motionVectors
  refine .bindEq (m := orPanic (mvInfo e.pce.framePredFrameDCT m)) (.orPanic ?_) fun info => .ite
    (.bindEq (.opt (step_mlift _)) fun _ => step_motionVector _ _ _)
    (.bindEq (step_mlift _) fun _ => .bindEq (step_motionVector _ _ _) fun _ => .bindEq (step_mlift _) fun _ => step_motionVector _ _ _)
  cases mvInfo e.pce.framePredFrameDCT m with
  | none => exact .none
  | some i => exact .some rfl
theorem step_mbVectors (m : Mode) : Go.Step (MbNear D) Eq (mbVectors e m) (mbVectors e m) := by
  unfold mbVectors
  exact .bindEq (.opt (.bindEq (step_mlift _) fun _ => .modify fun s t hr => ⟨hr.br, hr.dcp, hr.mvd, rfl, hr.frame⟩)) fun _ =>
    .bindEq (.opt (step_motionVectors _ _)) fun _ => .bindEq (.opt (step_motionVectors _ _)) fun _ =>
    .bindEq (.modify fun s t hr => ⟨hr.br, hr.dcp, by dsimp only; rw [hr.mvd], hr.qsc, hr.frame⟩) fun _ => .opt (step_mlift _)

theorem step_mbBlock (intra coded : Bool) (i : Nat) (b : Block) :
    Go.Step (MbNear D) Eq (mbBlock e intra coded i b) (mbBlock e intra coded i b) := by
  intro s t hr
  unfold mbBlock
  split
  · rw [hr.br, hr.dcp, hr.qsc]
    cases readBlock b t.dcp e.pce.intraVLCFormat (colorChannel i) intra t.br with
    | mk r u => cases r with
      | ok c => exact ⟨.ok rfl, ⟨rfl, rfl, hr.mvd, rfl, hr.frame⟩⟩
      | err x => exact ⟨.err x, ⟨rfl, rfl, hr.mvd, rfl, hr.frame⟩⟩
      | panic => exact ⟨.panic, ⟨rfl, rfl, hr.mvd, rfl, hr.frame⟩⟩
      | hang => exact ⟨.hang, ⟨rfl, rfl, hr.mvd, rfl, hr.frame⟩⟩
  · exact ⟨.ok rfl, hr⟩

theorem step_mbBlocks (he : EnvNear D e p f) (intra dct : Bool) (coded : Nat → Bool) (addr row : Nat) : ∀ (k i : Nat) (b : Block),
    Go.Step (MbNear D) Eq (mbBlocks e intra dct coded addr row k i b) (mbBlocks (e.refs p f) intra dct coded addr row k i b)
  | 0, _, _ => .pure rfl
  | k + 1, i, b => .bindEq (m' := mbBlock e intra (coded i) i b) (step_mbBlock _ _ _ _) fun b' => .getBind fun s t hr =>
      .bind (.orPanic (by rw [hr.mvd]; exact finish_near he t.mvd b' i addr row dct hr.frame)) fun _ _ h =>
        .bindEq (step_setFrame h) fun _ => step_mbBlocks he intra dct coded addr row k (i + 1) b'
theorem step_mbFinish (he : EnvNear D e p f) (row a : Nat) (m : Mode) (cbp : Nat) :
    Go.Step (MbNear D) Eq (mbFinish e row a m cbp) (mbFinish (e.refs p f) row a m cbp) :=
  .bindEq (step_mbBlocks he _ _ _ _ _ _ _ _) fun _ => .pure rfl
theorem mbCoded_handle (e : PicEnv) (row a : Nat) (m : Mode) : mbCoded e row a m =
    Near.handle (MB.lift (codedBlockPattern e.se.chromaFormat)) (mbFinish e row a m) fun _ => pure 0 := by
  funext s
  unfold mbCoded Near.handle
  cases MB.lift (codedBlockPattern e.se.chromaFormat) s with | mk r s' => cases r <;> rfl
theorem step_mbPattern (he : EnvNear D e p f) (row a : Nat) (m : Mode) :
    Go.Step (MbNear D) Eq (mbPattern e row a m) (mbPattern (e.refs p f) row a m) := by
  unfold mbPattern
  refine .ite ?_ (step_mbFinish he _ _ _ _)
  rw [mbCoded_handle, mbCoded_handle]
  exact .handle (step_mlift _) (fun a b h => by cases h; exact step_mbFinish he _ _ _ _) fun _ => .pure rfl
theorem step_macroblock (he : EnvNear D e p f) (row : Nat) (addr : Option Nat) :
    Go.Step (MbNear D) Eq (macroblock e row addr) (macroblock (e.refs p f) row addr) :=
  .bindEq (step_mlift _) fun incr => .bindEq (step_copySkipped he row addr incr) fun _ =>
    .bindEq (m' := skipResets e incr) (.modify fun s t hr => ⟨hr.br, by dsimp only; rw [hr.dcp], by dsimp only; rw [hr.mvd], hr.qsc, hr.frame⟩) fun _ =>
    .bindEq (m' := MB.lift (macroblockMode e)) (step_mlift _) fun m =>
    .bindEq (m' := modeResets e m.type) (.modify fun s t hr => ⟨hr.br, by dsimp only; rw [hr.dcp], by dsimp only; rw [hr.mvd], hr.qsc, hr.frame⟩) fun _ =>
    .bindEq (m' := mbVectors e m) (step_mbVectors m) fun _ => step_mbPattern he _ _ _

theorem step_mbLoop (he : EnvNear D e p f) (row : Nat) : ∀ k addr,
    Go.Step (MbNear D) Eq (mbLoop e row k addr) (mbLoop (e.refs p f) row k addr)
  | 0, _ => .hang
  | k + 1, addr => .bindEq (step_macroblock he row addr) fun _ => .bindEq (step_mlift _) fun _ =>
      .ite (.pure rfl) (step_mbLoop he row k _)
theorem step_mbLoopAll (he : EnvNear D e p f) (row : Nat) :
    Go.Step (MbNear D) Eq (mbLoopAll e row) (mbLoopAll (e.refs p f) row) := by
  intro s t hr
  unfold mbLoopAll
  rw [hr.br]
  exact step_mbLoop he row _ none s t hr
theorem step_slice (he : EnvNear D e p f) : Go.Step (MbNear D) Eq (slice e) (slice (e.refs p f)) := by
  unfold slice
  refine .bindEq (step_mlift _) fun code => .bindEq .check fun _ => .getBind fun s t hr => ?_
  rw [hr.frame.y.len, hr.frame.cb.len, hr.frame.cr.len, hr.frame.yStride, hr.frame.cStride]
  exact .ite .panic (.bindEq (step_mlift _) fun _ => .bindEq (.modify fun s t hr => ⟨hr.br, rfl, rfl, rfl, hr.frame⟩) fun _ =>
    .bindEq (step_mbLoopAll he _) fun _ => step_mlift _)
theorem step_sliceLoop (he : EnvNear D e p f) : ∀ k, Go.Step (MbNear D) Eq (sliceLoop e k) (sliceLoop (e.refs p f) k)
  | 0 => .hang
  | k + 1 => .bindEq (step_slice he) fun _ => .bindEq (step_mlift _) fun _ => .ite (step_sliceLoop he k) (.pure rfl)
theorem step_slicesOf (he : EnvNear D e p f) : Go.Step (MbNear D) Eq (slicesOf e) (slicesOf (e.refs p f)) := by
  intro s t hr
  unfold slicesOf
  rw [hr.br]
  exact Go.Step.bindEq (step_sliceLoop he _) (fun _ => step_mlift _) s t hr
end

end Video
end Mpeg
