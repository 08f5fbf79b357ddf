import Verif.Test.Fast
import Verif.Proof.AsconArm
import Verif.Proof.Hash
import Verif.Spec.Kat
/-!
# A concrete tag computed with the permutation of bi_32_armv7m
-/

namespace Model.Opt.Armv7m
open Spec Spec.Ascon

/-- `rounds`, evaluated with words. -/
def roundsF : (i n : Nat) → State → State
  | _, 0, s => s
  | i, n + 1, s => roundsF (i + 1) n (rot (roundF i s))

theorem roundsF_eq (i n : Nat) (s : State) : roundsF i n s = rounds i n s := by
  induction n generalizing i s with
  | zero => rfl
  | succ n ih => rw [roundsF, rounds, ih, roundF_eq]

/-- `q`, evaluated with words. -/
def qF (n : Nat) (s : State) : State := roundsF (12 - n) n s

theorem qF_eq : qF = q := by funext n s; exact roundsF_eq _ _ _

set_option maxRecDepth 100000 in
/-- First word of the tag for an all-zero key and nonce and empty associated data and message. -/
theorem word_ne : (macW pF (PQ p) (zeros 16) (zeros 16) [] []).x0 ≠ (macW qF (PQ q) (zeros 16) (zeros 16) [] []).x0 := by
  decide +kernel

theorem mac_ne : (PQ p).mac (zeros 16) (zeros 16) [] [] ≠ (PQ q).mac (zeros 16) (zeros 16) [] [] := by
  rw [(isAscon (q := p)).mac_words _ _ rfl rfl, (isAscon (q := q)).mac_words _ _ rfl rfl]
  have key : ∀ a b c d : BitVec 64, a ≠ b → be64 a ++ be64 c ≠ be64 b ++ be64 d := by
    intro a b c d hne h
    have h := congrArg ofBe64 h
    rw [ofBe64_be64_append, ofBe64_be64_append] at h
    exact hne h
  refine key _ _ _ _ ?_
  have h := word_ne
  rw [pF_eq, qF_eq] at h
  exact h

set_option maxRecDepth 100000 in
/-- The same for the key and nonce `00 01 ... 0F`. -/
theorem word_ne_ramp : (macW pF (PQ p) (Kat.ramp 16) (Kat.ramp 16) [] []).x0 ≠ (macW qF (PQ q) (Kat.ramp 16) (Kat.ramp 16) [] []).x0 := by
  decide +kernel

theorem mac_ne_ramp : (PQ p).mac (Kat.ramp 16) (Kat.ramp 16) [] [] ≠ (PQ q).mac (Kat.ramp 16) (Kat.ramp 16) [] [] := by
  rw [(isAscon (q := p)).mac_words _ _ rfl rfl, (isAscon (q := q)).mac_words _ _ rfl rfl]
  intro h
  have h := congrArg ofBe64 h
  rw [ofBe64_be64_append, ofBe64_be64_append] at h
  have hw := word_ne_ramp
  rw [pF_eq, qF_eq] at hw
  exact hw h

set_option maxRecDepth 100000 in
/-- First word of the hash of the empty string. -/
theorem hash_word_ne : (hashW pF []).x0 ≠ (hashW qF []).x0 := by decide +kernel

theorem hash_ne : AsconHash.hash [] ≠ hashQ q [] := by
  rw [hash_words]
  have h := hash_word_ne
  rw [pF_eq, qF_eq] at h
  intro hh
  have hh := congrArg ofBe64 hh
  simp only [hashQ, List.range_succ, List.range_zero, List.nil_append, List.flatMap_append, List.flatMap_cons, List.flatMap_nil,
    List.append_nil, List.append_assoc] at hh
  rw [ofBe64_be64_append, ofBe64_be64_append] at hh
  exact h hh

end Model.Opt.Armv7m
