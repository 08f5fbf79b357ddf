/-!
# Specification: byte strings

Basic vocabulary of the specification.  Nothing here models code.
-/

/-- A byte. -/
abbrev Byte := BitVec 8

namespace Spec

/-- `n` zero bytes. -/
def zeros (n : Nat) : List Byte := List.replicate n 0

/-- Bytewise exclusive or of two strings of the same length. -/
def xorBytes (a b : List Byte) : List Byte := List.zipWith (· ^^^ ·) a b

/-- Xor the string `B` into the beginning of the (longer) state `S`; the rest of `S` is unchanged. -/
def xorFront (S B : List Byte) : List Byte :=
  xorBytes (S.take B.length) B ++ S.drop B.length

/-- Split a byte string into consecutive blocks of `r` bytes (the last one may be shorter). -/
def chunks (r : Nat) (X : List Byte) : List (List Byte) :=
  if _h : r = 0 ∨ X = [] then [] else X.take r :: chunks r (X.drop r)
termination_by X.length
decreasing_by
  have : X.length ≠ 0 := fun h0 => _h (Or.inr (List.length_eq_zero_iff.mp h0))
  simp only [List.length_drop]; omega

/-- `X ‖ 1 ‖ 0*`, padded to a multiple of `r` bytes: one byte `0x80`, then as few zero bytes as needed. -/
def pad (r : Nat) (X : List Byte) : List Byte :=
  X ++ [0x80] ++ zeros ((r - (X.length + 1) % r) % r)

/-- The padded string cut into `r`-byte blocks. -/
def blocks (r : Nat) (X : List Byte) : List (List Byte) := chunks r (pad r X)

/-- The bits of a byte, most significant first. -/
def bitsOfByte (b : Byte) : List Bool := (List.range 8).map fun i => b.getLsbD (7 - i)

/-- The bits of a byte string, in order, most significant bit of each byte first. -/
def bits (X : List Byte) : List Bool := X.flatMap bitsOfByte

/-- Bit vector from its bits, `f 0` being the least significant one. -/
def ofBits : (n : Nat) → (Nat → Bool) → BitVec n
  | 0, _ => 0#0
  | n + 1, f => BitVec.cons (f n) (ofBits n f)

/-- Big-endian bytes of a 64-bit word. -/
def be64 (x : BitVec 64) : List Byte :=
  (List.range 8).map fun i => (x >>> (8 * (7 - i))).setWidth 8

/-- 64-bit word from its big-endian bytes (missing bytes count as zero). -/
def ofBe64 (b : List Byte) : BitVec 64 :=
  ofBits 64 fun i => (b.getD (7 - i / 8) 0).getLsbD (i % 8)

end Spec
