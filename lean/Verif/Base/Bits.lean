/-
Bit strings: most-significant-bit-first encoding of naturals and bytes.
-/
import Verif.Base.Go
namespace Mpeg

/-- The natural number written in binary, most significant bit first. -/
def natOfBits : List Bool → Nat
  | [] => 0
  | b :: l => b.toNat * 2 ^ l.length + natOfBits l

/-- The `k` low-order bits of `n`, most significant bit first. -/
def bitsOf : Nat → Nat → List Bool
  | 0, _ => []
  | k + 1, n => n.testBit k :: bitsOf k n

/-- The bits of a byte string. -/
def bitsOfBytes (bs : List UInt8) : List Bool := bs.flatMap (fun b => bitsOf 8 b.toNat)

/-- The first `n` bytes of a bit string. -/
def bytesOfBits : Nat → List Bool → List UInt8
  | 0, _ => []
  | n + 1, l => UInt8.ofNat (natOfBits (l.take 8)) :: bytesOfBits n (l.drop 8)

@[simp] theorem natOfBits_nil : natOfBits [] = 0 := rfl

@[simp] theorem length_bitsOf (k n : Nat) : (bitsOf k n).length = k := by
  induction k with
  | zero => rfl
  | succ k ih => simp [bitsOf, ih]

theorem natOfBits_append (a b : List Bool) :
    natOfBits (a ++ b) = natOfBits a * 2 ^ b.length + natOfBits b := by
  induction a with
  | nil => simp
  | cons x a ih =>
    simp only [List.cons_append, natOfBits, List.length_append, ih, Nat.pow_add]
    rw [Nat.add_mul]
    simp only [Nat.mul_assoc, Nat.add_assoc]

theorem natOfBits_lt (l : List Bool) : natOfBits l < 2 ^ l.length := by
  induction l with
  | nil => simp
  | cons b l ih =>
    simp only [natOfBits, List.length_cons, Nat.pow_succ]
    have : b.toNat ≤ 1 := Bool.toNat_le b
    have : b.toNat * 2 ^ l.length ≤ 1 * 2 ^ l.length := Nat.mul_le_mul_right _ this
    omega

theorem natOfBits_bitsOf (k n : Nat) : natOfBits (bitsOf k n) = n % 2 ^ k := by
  induction k with
  | zero => simp [bitsOf, Nat.mod_one]
  | succ k ih =>
    simp only [bitsOf, natOfBits, length_bitsOf, ih]
    have h := Nat.mod_pow_succ (b := 2) (x := n) (k := k)
    rw [h, Nat.toNat_testBit]
    rw [Nat.mul_comm]; omega

theorem natOfBits_bitsOf_of_lt {k n : Nat} (h : n < 2 ^ k) : natOfBits (bitsOf k n) = n := by
  rw [natOfBits_bitsOf, Nat.mod_eq_of_lt h]

theorem bitsOf_mod (k n m : Nat) (h : k ≤ m) : bitsOf k (n % 2 ^ m) = bitsOf k n := by
  induction k with
  | zero => rfl
  | succ k ih =>
    simp only [bitsOf, ih (by omega), Nat.testBit_mod_two_pow]
    simp; omega

theorem bitsOf_natOfBits (l : List Bool) : bitsOf l.length (natOfBits l) = l := by
  induction l with
  | nil => rfl
  | cons b l ih =>
    have hlt := natOfBits_lt l
    simp only [List.length_cons, bitsOf, natOfBits]
    congr 1
    · rw [Nat.mul_comm, Nat.testBit_two_pow_mul_add _ hlt]
      simp; cases b <;> simp
    · have h2 : bitsOf l.length (b.toNat * 2 ^ l.length + natOfBits l) = bitsOf l.length (natOfBits l) := by
        rw [← bitsOf_mod _ (b.toNat * 2 ^ l.length + natOfBits l) l.length (Nat.le_refl _)]
        rw [Nat.add_comm, Nat.add_mul_mod_self_right, Nat.mod_eq_of_lt hlt]
      rw [h2, ih]

theorem bitsOf_natOfBits' {k : Nat} {l : List Bool} (h : l.length = k) : bitsOf k (natOfBits l) = l := by
  subst h; exact bitsOf_natOfBits l

theorem bitsOf_append (j k n : Nat) : bitsOf (j + k) n = bitsOf j (n / 2 ^ k) ++ bitsOf k n := by
  induction j with
  | zero => simp [bitsOf]
  | succ j ih =>
    rw [show j + 1 + k = (j + k) + 1 by omega]
    simp only [bitsOf, ih, List.cons_append, List.cons.injEq, and_true]
    rw [Nat.testBit_div_two_pow, Nat.add_comm]

@[simp] theorem bitsOfBytes_nil : bitsOfBytes [] = [] := rfl
@[simp] theorem bitsOfBytes_cons (b : UInt8) (l : List UInt8) :
    bitsOfBytes (b :: l) = bitsOf 8 b.toNat ++ bitsOfBytes l := rfl
theorem bitsOfBytes_append (a b : List UInt8) :
    bitsOfBytes (a ++ b) = bitsOfBytes a ++ bitsOfBytes b := by simp [bitsOfBytes]

@[simp] theorem length_bitsOfBytes (l : List UInt8) : (bitsOfBytes l).length = 8 * l.length := by
  induction l with
  | nil => rfl
  | cons b l ih => simp [ih]; omega

@[simp] theorem length_bytesOfBits (n : Nat) (l : List Bool) : (bytesOfBits n l).length = n := by
  induction n generalizing l with
  | zero => rfl
  | succ n ih => simp [bytesOfBits, ih]

theorem bytesOfBits_append (bs : List UInt8) (rest : List Bool) :
    bytesOfBits bs.length (bitsOfBytes bs ++ rest) = bs := by
  induction bs with
  | nil => rfl
  | cons b bs ih =>
    simp only [List.length_cons, bytesOfBits, bitsOfBytes_cons, List.append_assoc]
    rw [List.take_append_of_le_length (by simp), List.take_of_length_le (by simp),
      List.drop_append_of_le_length (by simp), List.drop_of_length_le (by simp)]
    simp only [List.nil_append, ih, List.cons.injEq, and_true]
    rw [natOfBits_bitsOf_of_lt (by have := b.toNat_lt; simpa using this)]
    simp

theorem bytesOfBits_append' {n : Nat} (bs : List UInt8) (h : bs.length = n) (rest : List Bool) :
    bytesOfBits n (bitsOfBytes bs ++ rest) = bs := by
  subst h; exact bytesOfBits_append bs rest

theorem bitsOfBytes_bytesOfBits (n : Nat) (l : List Bool) (h : 8 * n ≤ l.length) :
    bitsOfBytes (bytesOfBits n l) = l.take (8 * n) := by
  induction n generalizing l with
  | zero => simp [bytesOfBits]
  | succ n ih =>
    simp only [bytesOfBits, bitsOfBytes_cons]
    rw [ih (l.drop 8) (by simp; omega)]
    have hl : (l.take 8).length = 8 := by simp; omega
    have h1 : (UInt8.ofNat (natOfBits (l.take 8))).toNat = natOfBits (l.take 8) := by
      have := natOfBits_lt (l.take 8)
      rw [hl] at this
      simp; omega
    rw [h1, bitsOf_natOfBits' hl]
    rw [show 8 * (n + 1) = 8 + 8 * n by omega, List.take_add]

theorem bitsOf_eight_toNat (b : UInt8) : bitsOf 8 b.toNat = bitsOfBytes [b] := by simp

end Mpeg
