import Verif.C.Mem
/-!
# Byte order

Elsewhere 64-bit integers are stored with the least significant byte first.  Here is what accesses do on platforms with either
order.
-/

namespace C

/-- How a platform stores integers. -/
inductive ByteOrder where
  | little
  | big
deriving DecidableEq

/-- Value of the 64-bit integer stored as `bs`. -/
def word : ByteOrder → List Byte → BitVec 64
  | .little, bs => le64 bs
  | .big, bs => (bs.getD 0 0) ++ (bs.getD 1 0) ++ (bs.getD 2 0) ++ (bs.getD 3 0) ++
      (bs.getD 4 0) ++ (bs.getD 5 0) ++ (bs.getD 6 0) ++ (bs.getD 7 0)

/-- Bytes of a 64-bit integer in memory. -/
def bytes : ByteOrder → BitVec 64 → List Byte
  | .little, x => toLe64 x
  | .big, x => (List.range 8).map fun i => (x >>> (8 * (7 - i))).setWidth 8

/-- By how many bits the byte at index `j` of a 64-bit integer in memory is shifted. -/
def shiftOf : ByteOrder → Nat → Nat
  | .little, j => 8 * j
  | .big, j => 8 * (7 - j)

/-- `*(uint64_t *)p` -/
def load64In (o : ByteOrder) (p : Ptr) : CM (BitVec 64) := do
  let bs ← load 8 8 p
  pure (word o bs)

/-- `*(uint64_t *)p = x` -/
def store64In (o : ByteOrder) (p : Ptr) (x : BitVec 64) : CM Unit := store 8 p (bytes o x)

/-- Reading `*mlen` -/
def loadLenIn (o : ByteOrder) (p : Ptr) : CM Nat := do
  let bs ← load 1 8 p
  pure (word o bs).toNat

/-- Writing `*clen` or `*mlen` -/
def storeLenIn (o : ByteOrder) (p : Ptr) (n : Nat) : CM Unit := store 1 p (bytes o (BitVec.ofNat 64 n))

end C
