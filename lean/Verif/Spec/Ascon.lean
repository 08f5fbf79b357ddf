import Verif.Spec.Bytes
/-!
# Specification: the Ascon permutation

Written from the Ascon v1.2 specification: round constants, the 5-bit S-box as a look-up table,
the linear diffusion layer.  Independent of the code under `/repo`.
-/

namespace Spec.Ascon

/-- The 320-bit state as five 64-bit words. -/
structure State where
  x0 : BitVec 64
  x1 : BitVec 64
  x2 : BitVec 64
  x3 : BitVec 64
  x4 : BitVec 64
deriving DecidableEq, Repr

@[ext] theorem State.ext' {a b : State} (h0 : a.x0 = b.x0) (h1 : a.x1 = b.x1) (h2 : a.x2 = b.x2)
    (h3 : a.x3 = b.x3) (h4 : a.x4 = b.x4) : a = b := by
  cases a; cases b; simp_all

/-- The 5-bit S-box as printed in the specification (`x0` is the most significant bit). -/
def sboxTable : List Nat :=
  [0x04, 0x0b, 0x1f, 0x14, 0x1a, 0x15, 0x09, 0x02, 0x1b, 0x05, 0x08, 0x12, 0x1d, 0x03, 0x06, 0x1c,
   0x1e, 0x13, 0x07, 0x0e, 0x00, 0x0d, 0x11, 0x18, 0x10, 0x0c, 0x01, 0x19, 0x16, 0x0a, 0x0f, 0x17]

/-- The S-box on five bits. `k` selects the output bit, `0` being the one of word `x0`. -/
def sbox (k : Nat) (a0 a1 a2 a3 a4 : Bool) : Bool :=
  (sboxTable.getD (16 * a0.toNat + 8 * a1.toNat + 4 * a2.toNat + 2 * a3.toNat + a4.toNat) 0).testBit (4 - k)

/-- One output word of the substitution layer: the S-box applied to each of the 64 columns. -/
def subWord (k : Nat) (s : State) : BitVec 64 :=
  ofBits 64 fun i => sbox k (s.x0.getLsbD i) (s.x1.getLsbD i) (s.x2.getLsbD i) (s.x3.getLsbD i) (s.x4.getLsbD i)

/-- Substitution layer. -/
def sub (s : State) : State :=
  ⟨subWord 0 s, subWord 1 s, subWord 2 s, subWord 3 s, subWord 4 s⟩

/-- Linear diffusion of one word. -/
def sigma (a b : Nat) (x : BitVec 64) : BitVec 64 := x ^^^ x.rotateRight a ^^^ x.rotateRight b

/-- Linear diffusion layer. -/
def lin (s : State) : State :=
  ⟨sigma 19 28 s.x0, sigma 61 39 s.x1, sigma 1 6 s.x2, sigma 10 17 s.x3, sigma 7 41 s.x4⟩

/-- Constant of round `i` (`0 ≤ i < 12`) of the 12-round permutation: `f0, e1, d2, …, 4b`. -/
def rc (i : Nat) : BitVec 64 := BitVec.ofNat 64 (0xf0 - 0x0f * i)

/-- Round `i` of the 12-round permutation. -/
def round (i : Nat) (s : State) : State := lin (sub { s with x2 := s.x2 ^^^ rc i })

/-- Rounds `i, i+1, …, i+n-1`. -/
def rounds : (i n : Nat) → State → State
  | _, 0, s => s
  | i, n + 1, s => rounds (i + 1) n (round i s)

/-- The `n`-round Ascon permutation (`n ≤ 12`): the last `n` rounds of the 12-round permutation. -/
def p (n : Nat) (s : State) : State := rounds (12 - n) n s

/-- The state as a string of 40 bytes. -/
def toBytes (s : State) : List Byte := be64 s.x0 ++ be64 s.x1 ++ be64 s.x2 ++ be64 s.x3 ++ be64 s.x4

/-- The state from a string of 40 bytes. -/
def ofBytes (b : List Byte) : State :=
  ⟨ofBe64 b, ofBe64 (b.drop 8), ofBe64 (b.drop 16), ofBe64 (b.drop 24), ofBe64 (b.drop 32)⟩

/-- The permutation on byte strings of length 40. -/
def perm (n : Nat) (b : List Byte) : List Byte := toBytes (p n (ofBytes b))

end Spec.Ascon
