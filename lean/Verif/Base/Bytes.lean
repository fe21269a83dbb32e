/-
Bytes, little-endian integers and 32-bit floating point patterns.
-/

namespace CN24

/-- One byte of a stream or of a compressed buffer. -/
abbrev Byte := BitVec 8

/-- The bit pattern of a `datum` (`typedef float datum`, include/cn24/util/Config.h). -/
abbrev F32 := BitVec 32

/-- The `k` bytes of an unsigned integer in memory order on a little-endian machine (the
project writes its integers with `write((const char*)&x, sizeof x)`). -/
def leBytes : Nat → Nat → List Byte
  | 0, _ => []
  | k + 1, n => BitVec.ofNat 8 n :: leBytes k (n / 256)

/-- The unsigned integer whose low-order bytes are the given ones and whose other bytes are 0:
the value of a zero-initialised integer variable after `read` has delivered these bytes. -/
def ofLe : List Byte → Nat
  | [] => 0
  | b :: bs => b.toNat + 256 * ofLe bs

@[simp] theorem leBytes_length (k n : Nat) : (leBytes k n).length = k := by
  induction k generalizing n with
  | zero => rfl
  | succ k ih => simp [leBytes, ih]

theorem ofLe_leBytes (k n : Nat) : ofLe (leBytes k n) = n % 256 ^ k := by
  induction k generalizing n with
  | zero => simp [leBytes, ofLe, Nat.mod_one]
  | succ k ih =>
    simp only [leBytes, ofLe, ih, BitVec.toNat_ofNat, show (2 : Nat) ^ 8 = 256 from rfl]
    rw [Nat.pow_succ', Nat.mod_mul]

theorem ofLe_leBytes_of_lt {k n : Nat} (h : n < 256 ^ k) : ofLe (leBytes k n) = n := by
  rw [ofLe_leBytes, Nat.mod_eq_of_lt h]

/-- The four bytes of a `datum` in memory. -/
def datumBytes (d : F32) : List Byte := leBytes 4 d.toNat

@[simp] theorem datumBytes_length (d : F32) : (datumBytes d).length = 4 := leBytes_length _ _

/-- The `datum` held by four bytes of memory. -/
def datumOf (bs : List Byte) : F32 := BitVec.ofNat 32 (ofLe bs)

@[simp] theorem datumOf_datumBytes (d : F32) : datumOf (datumBytes d) = d := by
  unfold datumOf datumBytes
  rw [ofLe_leBytes_of_lt (by simpa using d.isLt)]
  simp

/-- IEEE 754: exponent all ones and non-zero fraction. -/
def isNaN (a : F32) : Bool := (a &&& 0x7F800000#32 == 0x7F800000#32) && (a &&& 0x007FFFFF#32 != 0#32)

/-- IEEE 754: plus or minus zero. -/
def isZero (a : F32) : Bool := a &&& 0x7FFFFFFF#32 == 0#32

/-- C++ `a == b` on `float`: never true for a NaN, true for zeros of either sign, otherwise
equality of the patterns. -/
def feq (a b : F32) : Bool := !isNaN a && !isNaN b && (a == b || (isZero a && isZero b))

theorem feq_symm {a b : F32} (h : feq a b = true) : feq b a = true := by
  simp only [feq, Bool.and_eq_true, Bool.or_eq_true, Bool.not_eq_true', beq_iff_eq] at *
  rcases h with ⟨⟨h1, h2⟩, h3 | h3⟩
  · exact ⟨⟨h2, h1⟩, .inl h3.symm⟩
  · exact ⟨⟨h2, h1⟩, .inr h3.symm⟩

theorem feq_trans {a b c : F32} (h : feq a b = true) (h' : feq b c = true) : feq a c = true := by
  simp only [feq, Bool.and_eq_true, Bool.or_eq_true, Bool.not_eq_true', beq_iff_eq] at *
  rcases h with ⟨⟨h1, h2⟩, rfl | h3⟩ <;> rcases h' with ⟨⟨k1, k2⟩, rfl | k3⟩
  · exact ⟨⟨h1, k2⟩, .inl rfl⟩
  · exact ⟨⟨h1, k2⟩, .inr k3⟩
  · exact ⟨⟨h1, k2⟩, .inr h3⟩
  · exact ⟨⟨h1, k2⟩, .inr ⟨h3.1, k3.2⟩⟩

theorem feq_eq {a b : F32} (h : feq a b = true) : a = b ∨ (isZero a = true ∧ isZero b = true) := by
  simp only [feq, Bool.and_eq_true, Bool.or_eq_true, Bool.not_eq_true', beq_iff_eq] at h
  exact h.2

end CN24
