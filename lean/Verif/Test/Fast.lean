import Verif.Proof.AsconWord
/-!
# Evaluating the specification

The specification of the Ascon permutation works bit by bit, which is slow to evaluate.  Here is a word-level version that is
proved equal; it is only used for concrete test vectors and counterexamples.
-/

namespace Spec.Ascon

/-- Rotation with two shifts. -/
def rotF (x : BitVec 64) (r : Nat) : BitVec 64 := (x >>> r) ||| (x <<< (64 - r))

/-- `sigma` with two shifts. -/
def sigmaF (a b : Nat) (x : BitVec 64) : BitVec 64 := x ^^^ rotF x a ^^^ rotF x b

theorem sigmaF_eq (a b : Nat) (ha : a < 64) (hb : b < 64) (x : BitVec 64) : sigmaF a b x = sigma a b x := by
  simp only [sigmaF, sigma, rotF, BitVec.rotateRight_def, Nat.mod_eq_of_lt ha, Nat.mod_eq_of_lt hb]

/-- One round. -/
def roundF (i : Nat) (s : State) : State :=
  match subSliced { s with x2 := s.x2 ^^^ rc i } with
  | ⟨x0, x1, x2, x3, x4⟩ => ⟨sigmaF 19 28 x0, sigmaF 61 39 x1, sigmaF 1 6 x2, sigmaF 10 17 x3, sigmaF 7 41 x4⟩

theorem roundF_eq (i : Nat) (s : State) : roundF i s = Spec.Ascon.round i s := by
  rw [Spec.Ascon.round, sub_eq, lin, roundF]
  simp only [sigmaF_eq _ _ (show 19 < 64 by decide) (show 28 < 64 by decide),
    sigmaF_eq _ _ (show 61 < 64 by decide) (show 39 < 64 by decide), sigmaF_eq _ _ (show 1 < 64 by decide) (show 6 < 64 by decide),
    sigmaF_eq _ _ (show 10 < 64 by decide) (show 17 < 64 by decide), sigmaF_eq _ _ (show 7 < 64 by decide) (show 41 < 64 by decide)]

/-- Rounds. -/
def roundsF : (i n : Nat) → State → State
  | _, 0, s => s
  | i, n + 1, s => roundsF (i + 1) n (roundF i s)

theorem roundsF_eq (i n : Nat) (s : State) : roundsF i n s = rounds i n s := by
  induction n generalizing i s with
  | zero => rfl
  | succ n ih => rw [roundsF, rounds, ih, roundF_eq]

/-- The permutation. -/
def pF (n : Nat) (s : State) : State := roundsF (12 - n) n s

theorem pF_eq : pF = p := by funext n s; exact roundsF_eq _ _ _

end Spec.Ascon
