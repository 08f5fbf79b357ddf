import Verif.Proof.KeccakRef
/-!
# One Keccak-p[400] round written out lane by lane

The optimized implementations all compute the round in this form; `flat_eq` relates it to the specification once.
-/

namespace Model.K128
open KeccakRef Spec

/-- The round with constant `c`, lane by lane (lane `(x, y)` at index `x + 5 y`). -/
def flat (c : BitVec 16) (A : Lanes) : Lanes :=
  let c0 := A[0] ^^^ A[5] ^^^ A[10] ^^^ A[15] ^^^ A[20]
  let c1 := A[1] ^^^ A[6] ^^^ A[11] ^^^ A[16] ^^^ A[21]
  let c2 := A[2] ^^^ A[7] ^^^ A[12] ^^^ A[17] ^^^ A[22]
  let c3 := A[3] ^^^ A[8] ^^^ A[13] ^^^ A[18] ^^^ A[23]
  let c4 := A[4] ^^^ A[9] ^^^ A[14] ^^^ A[19] ^^^ A[24]
  let d0 := c4 ^^^ rol16 c1 1
  let d1 := c0 ^^^ rol16 c2 1
  let d2 := c1 ^^^ rol16 c3 1
  let d3 := c2 ^^^ rol16 c4 1
  let d4 := c3 ^^^ rol16 c0 1
  let b0 := rol16 (A[0] ^^^ d0) 0
  let b1 := rol16 (A[6] ^^^ d1) 12
  let b2 := rol16 (A[12] ^^^ d2) 11
  let b3 := rol16 (A[18] ^^^ d3) 5
  let b4 := rol16 (A[24] ^^^ d4) 14
  let b5 := rol16 (A[3] ^^^ d3) 12
  let b6 := rol16 (A[9] ^^^ d4) 4
  let b7 := rol16 (A[10] ^^^ d0) 3
  let b8 := rol16 (A[16] ^^^ d1) 13
  let b9 := rol16 (A[22] ^^^ d2) 13
  let b10 := rol16 (A[1] ^^^ d1) 1
  let b11 := rol16 (A[7] ^^^ d2) 6
  let b12 := rol16 (A[13] ^^^ d3) 9
  let b13 := rol16 (A[19] ^^^ d4) 8
  let b14 := rol16 (A[20] ^^^ d0) 2
  let b15 := rol16 (A[4] ^^^ d4) 11
  let b16 := rol16 (A[5] ^^^ d0) 4
  let b17 := rol16 (A[11] ^^^ d1) 10
  let b18 := rol16 (A[17] ^^^ d2) 15
  let b19 := rol16 (A[23] ^^^ d3) 8
  let b20 := rol16 (A[2] ^^^ d2) 14
  let b21 := rol16 (A[8] ^^^ d3) 7
  let b22 := rol16 (A[14] ^^^ d4) 7
  let b23 := rol16 (A[15] ^^^ d0) 9
  let b24 := rol16 (A[21] ^^^ d1) 2
  #v[b0 ^^^ (~~~ b1 &&& b2) ^^^ c, b1 ^^^ (~~~ b2 &&& b3), b2 ^^^ (~~~ b3 &&& b4), b3 ^^^ (~~~ b4 &&& b0), b4 ^^^ (~~~ b0 &&& b1),
     b5 ^^^ (~~~ b6 &&& b7), b6 ^^^ (~~~ b7 &&& b8), b7 ^^^ (~~~ b8 &&& b9), b8 ^^^ (~~~ b9 &&& b5), b9 ^^^ (~~~ b5 &&& b6),
     b10 ^^^ (~~~ b11 &&& b12), b11 ^^^ (~~~ b12 &&& b13), b12 ^^^ (~~~ b13 &&& b14), b13 ^^^ (~~~ b14 &&& b10), b14 ^^^ (~~~ b10 &&& b11),
     b15 ^^^ (~~~ b16 &&& b17), b16 ^^^ (~~~ b17 &&& b18), b17 ^^^ (~~~ b18 &&& b19), b18 ^^^ (~~~ b19 &&& b15), b19 ^^^ (~~~ b15 &&& b16),
     b20 ^^^ (~~~ b21 &&& b22), b21 ^^^ (~~~ b22 &&& b23), b22 ^^^ (~~~ b23 &&& b24), b23 ^^^ (~~~ b24 &&& b20), b24 ^^^ (~~~ b20 &&& b21)]

theorem rhoOffset_lt (x y : Nat) : Keccak.rhoOffset x y < 16 := by
  unfold Keccak.rhoOffset; split <;> omega

theorem lane_prb (A : Lanes) (x y : Nat) : Keccak.lane (Keccak.pi (Keccak.rho (Keccak.theta A))) x y =
    rol16 (Keccak.lane A (x % 5 + 3 * (y % 5)) (x % 5) ^^^
      (Keccak.parity A (x % 5 + 3 * (y % 5) + 4) ^^^ rol16 (Keccak.parity A (x % 5 + 3 * (y % 5) + 1)) 1))
      (Keccak.rhoOffset ((x % 5 + 3 * (y % 5)) % 5) (x % 5)) := by
  rw [rol16_eq _ (rhoOffset_lt _ _), rol16_eq _ (by omega : (1 : Nat) < 16)]
  simp only [Keccak.pi, Keccak.rho, Keccak.theta, Keccak.lane_ofLanes, Nat.mod_mod, ← BitVec.xor_assoc]
  simp [Keccak.parity, Keccak.lane, Nat.add_mod]

/-- The `ρ` offsets. -/
theorem rhoOffset_eq : ∀ x < 5, ∀ y < 5, Keccak.rhoOffset x y = rhoOffsets.getD (x + 5 * y) 0 := by decide

theorem flat_eq (i : Nat) (A : Lanes) : flat (Keccak.rc i) A = Keccak.round i A := by
  apply lanes_ext
  intro x y hx hy
  rw [get_eq_lane, get_eq_lane]
  simp only [Keccak.round, Keccak.iota, Keccak.chi, Keccak.lane_ofLanes, lane_prb, Nat.mod_mod, Nat.mod_eq_of_lt hx,
    Nat.mod_eq_of_lt hy]
  have hr := rhoOffset_eq
  rcases (by omega : x = 0 ∨ x = 1 ∨ x = 2 ∨ x = 3 ∨ x = 4) with rfl | rfl | rfl | rfl | rfl <;>
  rcases (by omega : y = 0 ∨ y = 1 ∨ y = 2 ∨ y = 3 ∨ y = 4) with rfl | rfl | rfl | rfl | rfl <;>
  simp [Keccak.lane, Keccak.parity, flat, rhoOffset_eq, rhoOffsets]

end Model.K128
