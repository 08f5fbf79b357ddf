import Verif.Spec.Bytes
/-!
# Specification: Keccak-p[400, n]

Written from FIPS 202 / the Keccak reference with lane size `w = 16` (`ℓ = 4`, 20 rounds): `θ`, `ρ`, `π`, `χ`, `ι`,
the `ρ` offsets from their triangular-number definition and the round constants from the LFSR.
-/

namespace Spec.Keccak

/-- The state: 25 lanes of 16 bits; lane `(x, y)` has index `x + 5 y`. -/
abbrev State := Vector (BitVec 16) 25

/-- Lane `(x, y)`, coordinates modulo 5. -/
def lane (A : State) (x y : Nat) : BitVec 16 := A[x % 5 + 5 * (y % 5)]'(by omega)

/-- State from its lanes. -/
def ofLanes (f : Nat → Nat → BitVec 16) : State := Vector.ofFn fun i => f (i.val % 5) (i.val / 5)

/-- Column parity. -/
def parity (A : State) (x : Nat) : BitVec 16 :=
  lane A x 0 ^^^ lane A x 1 ^^^ lane A x 2 ^^^ lane A x 3 ^^^ lane A x 4

/-- `θ` -/
def theta (A : State) : State :=
  ofLanes fun x y => lane A x y ^^^ parity A (x + 4) ^^^ (parity A (x + 1)).rotateLeft 1

/-- The walk `(x, y) ↦ (y, 2x + 3y)` from `(1, 0)`: position after `t` steps. -/
def walk : Nat → Nat × Nat
  | 0 => (1, 0)
  | t + 1 => let (x, y) := walk t; (y, (2 * x + 3 * y) % 5)

/-- `ρ` offset of lane `(x, y)`: `(t+1)(t+2)/2` if the walk is at `(x, y)` after `t < 24` steps, 0 for `(0, 0)`. -/
def rhoOffset (x y : Nat) : Nat :=
  match (List.range 24).find? fun t => walk t == (x, y) with
  | some t => (t + 1) * (t + 2) / 2 % 16
  | none => 0

/-- `ρ` -/
def rho (A : State) : State := ofLanes fun x y => (lane A x y).rotateLeft (rhoOffset x y)

/-- `π`: the new lane `(x, y)` is the old lane `(x + 3y, x)`. -/
def pi (A : State) : State := ofLanes fun x y => lane A (x + 3 * y) x

/-- `χ` -/
def chi (A : State) : State :=
  ofLanes fun x y => lane A x y ^^^ (~~~ lane A (x + 1) y &&& lane A (x + 2) y)

/-- One step of the LFSR with polynomial `x⁸ + x⁶ + x⁵ + x⁴ + 1`. -/
def lfsrStep (r : Nat) : Nat := if r.testBit 7 then ((2 * r) % 256) ^^^ 0x71 else 2 * r

/-- Output bit `t` of the LFSR. -/
def lfsrBit (t : Nat) : Bool := (Nat.repeat lfsrStep t 1).testBit 0

/-- Round constant of round `i`: bit `2^j - 1` is LFSR output `j + 7 i`, for `0 ≤ j ≤ ℓ = 4`. -/
def rc (i : Nat) : BitVec 16 :=
  ofBits 16 fun b => (List.range 5).any fun j => b == 2 ^ j - 1 && lfsrBit (j + 7 * i)

/-- `ι` -/
def iota (i : Nat) (A : State) : State := ofLanes fun x y => if x = 0 ∧ y = 0 then lane A 0 0 ^^^ rc i else lane A x y

/-- Round `i` of the 20-round permutation. -/
def round (i : Nat) (A : State) : State := iota i (chi (pi (rho (theta A))))

/-- Rounds `i, …, i+n-1`. -/
def rounds : (i n : Nat) → State → State
  | _, 0, A => A
  | i, n + 1, A => rounds (i + 1) n (round i A)

/-- Keccak-p[400, n]: the last `n` rounds of the 20-round permutation. -/
def p (n : Nat) (A : State) : State := rounds (20 - n) n A

/-- 50 bytes, little-endian lanes. -/
def toBytes (A : State) : List Byte :=
  (List.range 25).flatMap fun i => let l := lane A (i % 5) (i / 5); [l.setWidth 8, (l >>> 8).setWidth 8]

/-- State from 50 bytes. -/
def ofBytes (b : List Byte) : State :=
  Vector.ofFn fun i => (b.getD (2 * i.val + 1) 0) ++ (b.getD (2 * i.val) 0)

/-- The permutation on byte strings of length 50. -/
def perm (n : Nat) (b : List Byte) : List Byte := toBytes (p n (ofBytes b))

end Spec.Keccak
