/-
Execution model for Go functions: a computation over a mutable state `σ` that
returns a value, returns an error, panics, or does not return.
State changes made before an error / panic are kept, as in Go.
-/
namespace Mpeg

/-- The error values that occur in the modelled code.
`eof`, `unexpectedEOF` : `io.EOF`, `io.ErrUnexpectedEOF`;
`eop` : ts/payload_unit_reader.go:11;
`noSyncByte` : ts/packet.go:16;
`startCodePrefixNotFound`, `markerNotFound`, `invalidStuffingByte` : pes/packet.go:12-16 (and ps/errors.go:8 for the second);
`unexpectedStartCode` : ps/start_code.go:7, video/start_codes.go:31;
`programEndCodeNotFound` : ps/errors.go:7;
`unexpectedExtensionID` : video/extension_id.go:29;
`unexpectedNonZeroByte` : video/next_start_code.go:8;
`missingMarkerBit` : video/sequence_header.go:6;
`invalidReservedBits` : video/slice.go:6;
`missingHuffmanValue` : `huffman.ErrMissingHuffmanValue`;
`eos`, `unsupported11172` : video/frame_provider.go:6-7. -/
inductive Err where
  | eof | unexpectedEOF | eop
  | noSyncByte
  | startCodePrefixNotFound | markerNotFound | invalidStuffingByte
  | unexpectedStartCode | programEndCodeNotFound
  | unexpectedExtensionID | unexpectedNonZeroByte | missingMarkerBit | invalidReservedBits
  | missingHuffmanValue
  | eos | unsupported11172
deriving DecidableEq, Repr, Inhabited

/-- How a Go call can end. `hang` marks a loop that used up its fuel. -/
inductive Res (α : Type) where
  | ok (a : α)
  | err (e : Err)
  | panic
  | hang
deriving DecidableEq, Repr

/-- A Go function acting on a state `σ`. -/
def Go (σ α : Type) := σ → Res α × σ

namespace Go
variable {σ α β : Type}

protected def pure (a : α) : Go σ α := fun s => (.ok a, s)

protected def bind (m : Go σ α) (f : α → Go σ β) : Go σ β := fun s =>
  match m s with
  | (.ok a, s') => f a s'
  | (.err e, s') => (.err e, s')
  | (.panic, s') => (.panic, s')
  | (.hang, s') => (.hang, s')

instance : Monad (Go σ) where
  pure := Go.pure
  bind := Go.bind

/-- `return ..., err` -/
def throw (e : Err) : Go σ α := fun s => (.err e, s)
/-- a run-time panic -/
def panic : Go σ α := fun s => (.panic, s)
/-- fuel exhausted -/
def hang : Go σ α := fun s => (.hang, s)
def get : Go σ σ := fun s => (.ok s, s)
def modify (f : σ → σ) : Go σ Unit := fun s => (.ok (), f s)

/-- `if !c { return err }` -/
def check (c : Bool) (e : Err) : Go σ Unit := if c then Pure.pure () else throw e

/-- `if c { x, err = m }`, with `d` the zero value otherwise. -/
def opt (c : Bool) (d : α) (m : Go σ α) : Go σ α := if c then m else Pure.pure d

/-- Call `m` but drop its error (Go: the error result is ignored). Panics are not dropped. -/
def ignoreErr (m : Go σ α) : Go σ Unit := fun s =>
  match m s with
  | (.ok _, s') => (.ok (), s')
  | (.err _, s') => (.ok (), s')
  | (.panic, s') => (.panic, s')
  | (.hang, s') => (.hang, s')

/-- Run `m` on a component of the state. -/
def zoom {τ : Type} (gt : τ → σ) (st : τ → σ → τ) (m : Go σ α) : Go τ α := fun t =>
  ((m (gt t)).1, st t (m (gt t)).2)

@[simp] theorem pure_apply (a : α) (s : σ) : (Pure.pure a : Go σ α) s = (.ok a, s) := rfl
theorem bind_apply (m : Go σ α) (f : α → Go σ β) (s : σ) :
    (m >>= f) s = (match m s with
      | (.ok a, s') => f a s'
      | (.err e, s') => (.err e, s')
      | (.panic, s') => (.panic, s')
      | (.hang, s') => (.hang, s')) := rfl

theorem bind_ok {m : Go σ α} {f : α → Go σ β} {s s' : σ} {a : α} (h : m s = (.ok a, s')) :
    (m >>= f) s = f a s' := by simp [bind_apply, h]
theorem bind_err {m : Go σ α} {f : α → Go σ β} {s s' : σ} {e : Err} (h : m s = (.err e, s')) :
    (m >>= f) s = (.err e, s') := by simp [bind_apply, h]
theorem bind_panic {m : Go σ α} {f : α → Go σ β} {s s' : σ} (h : m s = (.panic, s')) :
    (m >>= f) s = (.panic, s') := by simp [bind_apply, h]
theorem bind_hang {m : Go σ α} {f : α → Go σ β} {s s' : σ} (h : m s = (.hang, s')) :
    (m >>= f) s = (.hang, s') := by simp [bind_apply, h]

@[simp] theorem ite_apply {c : Prop} [Decidable c] (m m' : Go σ α) (s : σ) :
    (if c then m else m') s = if c then m s else m' s := by split <;> rfl
@[simp] theorem throw_apply (e : Err) (s : σ) : (throw e : Go σ α) s = (.err e, s) := rfl
@[simp] theorem panic_apply (s : σ) : (panic : Go σ α) s = (.panic, s) := rfl
@[simp] theorem hang_apply (s : σ) : (hang : Go σ α) s = (.hang, s) := rfl
@[simp] theorem get_apply (s : σ) : (get : Go σ σ) s = (.ok s, s) := rfl
@[simp] theorem modify_apply (f : σ → σ) (s : σ) : modify f s = (.ok (), f s) := rfl
@[simp] theorem check_true (e : Err) : (check true e : Go σ Unit) = Pure.pure () := rfl
@[simp] theorem check_false (e : Err) : (check false e : Go σ Unit) = throw e := rfl
@[simp] theorem opt_true (d : α) (m : Go σ α) : opt true d m = m := rfl
@[simp] theorem opt_false (d : α) (m : Go σ α) : opt false d m = Pure.pure d := rfl

instance : LawfulMonad (Go σ) := LawfulMonad.mk'
  (id_map := by
    intro α x; funext s
    simp only [Functor.map, Go.bind]
    cases h : x s with | mk r s' => cases r <;> simp [Go.pure])
  (pure_bind := by intro α β a f; rfl)
  (bind_assoc := by
    intro α β γ x f g; funext s
    show Go.bind (Go.bind x f) g s = Go.bind x (fun a => Go.bind (f a) g) s
    simp only [Go.bind]
    cases h : x s with | mk r s' => cases r <;> simp)

@[simp] theorem map_apply (f : α → β) (m : Go σ α) (s : σ) :
    (f <$> m) s = (match m s with
      | (.ok a, s') => (.ok (f a), s')
      | (.err e, s') => (.err e, s')
      | (.panic, s') => (.panic, s')
      | (.hang, s') => (.hang, s')) := rfl

/-- Inversion of a successful sequence. -/
theorem bind_eq_ok {m : Go σ α} {f : α → Go σ β} {s s'' : σ} {b : β}
    (h : (m >>= f) s = (.ok b, s'')) : ∃ a s', m s = (.ok a, s') ∧ f a s' = (.ok b, s'') := by
  rw [bind_apply] at h
  cases hm : m s with
  | mk r s' =>
    rw [hm] at h
    cases r with
    | ok a => exact ⟨a, s', rfl, h⟩
    | err e => simp at h
    | panic => simp at h
    | hang => simp at h

end Go
end Mpeg
