/-
The bit reader (`github.com/32bitkid/bitreader`, an external dependency) as an
explicit contract.  Its source is not part of /repo; the contract below is the
one its call sites rely on and is part of the trusted base (see DESIGN.md).

The input is a finite sequence of segments.  A segment is a run of bits ended
by one error (`io.EOF` for a plain stream, `ts.EOP` between the payload units
of a `ts.NewPayloadUnitReader`).  Requests never cross a segment end.
-/
import Verif.Base.Bits
namespace Mpeg

structure BR where
  /-- unread bits of the current segment -/
  bits : List Bool
  /-- number of bits consumed since the reader was created (for alignment) -/
  pos : Nat
  /-- error reported at the end of the current segment -/
  stop : Err
  /-- later segments -/
  later : List (List Bool × Err)
deriving DecidableEq, Repr

namespace BR

/-- The error of a request that the current segment cannot satisfy. -/
def failErr (s : BR) : Err :=
  if s.bits.isEmpty then s.stop else if s.stop = .eof then .unexpectedEOF else s.stop

/-- The reader after such a request: the rest of the segment is gone and the next
one, if any, is current; the last segment stays (its error is repeated). -/
def failTo (s : BR) : BR :=
  match s.later with
  | [] => { s with bits := [], pos := s.pos + s.bits.length }
  | (b, e) :: l => { bits := b, pos := s.pos + s.bits.length, stop := e, later := l }

def adv (s : BR) (k : Nat) : BR := { s with bits := s.bits.drop k, pos := s.pos + k }

/-- `bitreader.Read8/16/32/64(k)` : the next `k` bits as an unsigned number. -/
def read (k : Nat) : Go BR Nat := fun s =>
  if k ≤ s.bits.length then (.ok (natOfBits (s.bits.take k)), s.adv k)
  else (.err s.failErr, s.failTo)

/-- `bitreader.Read1()` -/
def read1 : Go BR Bool := fun s =>
  match s.bits with
  | b :: _ => (.ok b, s.adv 1)
  | [] => (.err s.failErr, s.failTo)

/-- `bitreader.Peek32(k)` -/
def peek (k : Nat) : Go BR Nat := fun s =>
  if k ≤ s.bits.length then (.ok (natOfBits (s.bits.take k)), s)
  else (.err s.failErr, s.failTo)

/-- `bitreader.Skip(k)` -/
def skip (k : Nat) : Go BR Unit := fun s =>
  if k ≤ s.bits.length then (.ok (), s.adv k)
  else (.err s.failErr, s.failTo)

/-- `bitreader.IsAligned()` -/
def isAligned (s : BR) : Bool := s.pos % 8 == 0

/-- `bitreader.Align()`: discard the rest of the current byte. -/
def align : Go BR Unit := fun s =>
  (.ok (), s.adv ((8 - s.pos % 8) % 8))

/-- `io.ReadFull(br, buf)` with `len(buf) = n`: the bytes that were stored and the error.
(Whole bytes from the current position on; for a reader that is not on a byte
boundary the bytes are taken shifted.) -/
def readFull (n : Nat) : Go BR (List UInt8 × Option Err) := fun s =>
  if 8 * n ≤ s.bits.length then (.ok (bytesOfBits n s.bits, none), s.adv (8 * n))
  else (.ok (bytesOfBits (s.bits.length / 8) s.bits, some s.failErr), s.failTo)

/-- `ioutil.ReadAll(br)`: everything up to the end of the segment; `io.EOF` is not
reported as an error. -/
def readAll : Go BR (List UInt8 × Option Err) := fun s =>
  (.ok (bytesOfBits (s.bits.length / 8) s.bits, if s.stop = .eof then none else some s.stop),
    s.failTo)

/-- a fresh bit reader over a byte source that ends with `io.EOF` -/
def ofBits (l : List Bool) : BR := { bits := l, pos := 0, stop := .eof, later := [] }
def ofBytes (l : List UInt8) : BR := ofBits (bitsOfBytes l)

/-! ### forward execution lemmas -/

variable {r : List Bool} {pos : Nat} {stop : Err} {later : List (List Bool × Err)}

theorem read_of_length {k : Nat} {l : List Bool} (h : l.length = k) :
    read k ⟨l ++ r, pos, stop, later⟩ = (.ok (natOfBits l), ⟨r, pos + k, stop, later⟩) := by
  subst h; simp [read, adv]

@[simp] theorem read_bitsOf (k n : Nat) :
    read k ⟨bitsOf k n ++ r, pos, stop, later⟩ = (.ok (n % 2 ^ k), ⟨r, pos + k, stop, later⟩) := by
  rw [read_of_length (by simp), natOfBits_bitsOf]

@[simp] theorem read1_cons (b : Bool) :
    read1 ⟨b :: r, pos, stop, later⟩ = (.ok b, ⟨r, pos + 1, stop, later⟩) := by
  simp [read1, adv]

theorem skip_of_length {k : Nat} {l : List Bool} (h : l.length = k) :
    skip k ⟨l ++ r, pos, stop, later⟩ = (.ok (), ⟨r, pos + k, stop, later⟩) := by
  subst h; simp [skip, adv]

@[simp] theorem skip_bitsOf (k n : Nat) :
    skip k ⟨bitsOf k n ++ r, pos, stop, later⟩ = (.ok (), ⟨r, pos + k, stop, later⟩) :=
  skip_of_length (by simp)

theorem peek_of_length {k : Nat} {l : List Bool} (h : l.length = k) :
    peek k ⟨l ++ r, pos, stop, later⟩ = (.ok (natOfBits l), ⟨l ++ r, pos, stop, later⟩) := by
  subst h; simp [peek]

@[simp] theorem peek_bitsOf (k n : Nat) :
    peek k ⟨bitsOf k n ++ r, pos, stop, later⟩ =
      (.ok (n % 2 ^ k), ⟨bitsOf k n ++ r, pos, stop, later⟩) := by
  rw [peek_of_length (by simp), natOfBits_bitsOf]

theorem readFull_bytes {n : Nat} {bs : List UInt8} (h : bs.length = n) :
    readFull n ⟨bitsOfBytes bs ++ r, pos, stop, later⟩ =
      (.ok (bs, none), ⟨r, pos + 8 * n, stop, later⟩) := by
  subst h; simp [readFull, adv, bytesOfBits_append]

@[simp] theorem read_nil (k : Nat) (hk : 0 < k) (s : BR) (h : s.bits = []) :
    read k s = (.err s.stop, s.failTo) := by
  have : ¬ k ≤ 0 := by omega
  simp [read, h, failErr, this]

theorem read_short {k : Nat} {s : BR} (h : s.bits.length < k) :
    read k s = (.err s.failErr, s.failTo) := by
  have : ¬ k ≤ s.bits.length := by omega
  simp [read, this]
theorem peek_short {k : Nat} {s : BR} (h : s.bits.length < k) :
    peek k s = (.err s.failErr, s.failTo) := by
  have : ¬ k ≤ s.bits.length := by omega
  simp [peek, this]
theorem skip_short {k : Nat} {s : BR} (h : s.bits.length < k) :
    skip k s = (.err s.failErr, s.failTo) := by
  have : ¬ k ≤ s.bits.length := by omega
  simp [skip, this]
theorem read1_short {s : BR} (h : s.bits.length < 1) :
    read1 s = (.err s.failErr, s.failTo) := by
  have : s.bits = [] := List.length_eq_zero_iff.mp (by omega)
  simp [read1, this]

theorem read_ok {k : Nat} {s : BR} (h : k ≤ s.bits.length) :
    read k s = (.ok (natOfBits (s.bits.take k)), s.adv k) := by simp [read, h]
theorem peek_ok {k : Nat} {s : BR} (h : k ≤ s.bits.length) :
    peek k s = (.ok (natOfBits (s.bits.take k)), s) := by simp [peek, h]
theorem skip_ok {k : Nat} {s : BR} (h : k ≤ s.bits.length) :
    skip k s = (.ok (), s.adv k) := by simp [skip, h]

/-! ### shape of the state after any call -/

/-- `s'` is reached from `s` by consuming exactly the bits `l` of the current segment. -/
structure Took (s : BR) (l : List Bool) (s' : BR) : Prop where
  bits : s.bits = l ++ s'.bits
  pos : s'.pos = s.pos + l.length
  stop : s'.stop = s.stop
  later : s'.later = s.later

theorem Took.refl (s : BR) : Took s [] s := ⟨by simp, by simp, rfl, rfl⟩
theorem Took.trans {s s' s'' : BR} {l l' : List Bool} (h : Took s l s') (h' : Took s' l' s'') :
    Took s (l ++ l') s'' :=
  ⟨by rw [h.bits, h'.bits, List.append_assoc], by rw [h'.pos, h.pos, List.length_append]; omega,
   h'.stop.trans h.stop, h'.later.trans h.later⟩

theorem took_adv {s : BR} {k : Nat} (h : k ≤ s.bits.length) : Took s (s.bits.take k) (s.adv k) :=
  ⟨by simp [adv], by simp [adv, h], rfl, rfl⟩

theorem Took.eq {s s' : BR} {l : List Bool} (h : Took s l s') :
    s = ⟨l ++ s'.bits, s.pos, s'.stop, s'.later⟩ := by
  cases s; cases s'; have := h.bits; have := h.stop; have := h.later; simp_all

theorem read_inv {k v : Nat} {s s' : BR} (h : read k s = (.ok v, s')) :
    ∃ l, Took s l s' ∧ l.length = k ∧ v = natOfBits l := by
  unfold read at h
  split at h
  · rename_i hk
    simp only [Prod.mk.injEq, Res.ok.injEq] at h
    exact ⟨s.bits.take k, h.2 ▸ took_adv hk, by simp [hk], h.1.symm⟩
  · simp at h

theorem skip_inv {k : Nat} {u : Unit} {s s' : BR} (h : skip k s = (.ok u, s')) :
    ∃ l, Took s l s' ∧ l.length = k := by
  unfold skip at h
  split at h
  · rename_i hk
    simp only [Prod.mk.injEq] at h
    exact ⟨s.bits.take k, h.2 ▸ took_adv hk, by simp [hk]⟩
  · simp at h

theorem read1_inv {b : Bool} {s s' : BR} (h : read1 s = (.ok b, s')) : Took s [b] s' := by
  unfold read1 at h
  split at h
  · rename_i b' l hk
    simp only [Prod.mk.injEq, Res.ok.injEq] at h
    obtain ⟨rfl, rfl⟩ := h
    exact ⟨by simp [adv, hk], by simp [adv], rfl, rfl⟩
  · simp at h

theorem peek_inv {k v : Nat} {s s' : BR} (h : peek k s = (.ok v, s')) :
    s' = s ∧ k ≤ s.bits.length ∧ v = natOfBits (s.bits.take k) := by
  unfold peek at h
  split at h
  · rename_i hk
    simp only [Prod.mk.injEq, Res.ok.injEq] at h
    exact ⟨h.2.symm, hk, h.1.symm⟩
  · simp at h

theorem readFull_inv {n : Nat} {bs : List UInt8} {s s' : BR}
    (h : readFull n s = (.ok (bs, none), s')) :
    Took s (bitsOfBytes bs) s' ∧ bs.length = n := by
  unfold readFull at h
  split at h
  · rename_i hk
    simp only [Prod.mk.injEq, Res.ok.injEq, and_true] at h
    obtain ⟨rfl, rfl⟩ := h
    rw [bitsOfBytes_bytesOfBits _ _ hk]
    exact ⟨took_adv hk, by simp⟩
  · simp at h

end BR
end Mpeg
