import Verif.Proof.AsconSpec
/-!
# Functions that move bits

A function on bit vectors that preserves `^^^` (or `|||`) is determined by its values on the vectors with a single one.
-/

namespace Bits
open Spec

/-- The vector whose bit `i` is bit `π i` of `x`. -/
def perm {n : Nat} (m : Nat) (π : Nat → Nat) (x : BitVec n) : BitVec m := ofBits m fun i => x.getLsbD (π i)

theorem getLsbD_perm {n m : Nat} (π : Nat → Nat) (x : BitVec n) {i : Nat} (h : i < m) :
    (perm m π x).getLsbD i = x.getLsbD (π i) := by
  rw [perm, getLsbD_ofBits]; simp [h]

theorem perm_xor {n m : Nat} (π : Nat → Nat) (x y : BitVec n) : perm m π (x ^^^ y) = perm m π x ^^^ perm m π y := by
  apply BitVec.eq_of_getLsbD_eq; intro i hi
  simp only [BitVec.getLsbD_xor, getLsbD_perm π _ hi]

theorem perm_or {n m : Nat} (π : Nat → Nat) (x y : BitVec n) : perm m π (x ||| y) = perm m π x ||| perm m π y := by
  apply BitVec.eq_of_getLsbD_eq; intro i hi
  simp only [BitVec.getLsbD_or, getLsbD_perm π _ hi]

theorem perm_and {n m : Nat} (π : Nat → Nat) (x y : BitVec n) : perm m π (x &&& y) = perm m π x &&& perm m π y := by
  apply BitVec.eq_of_getLsbD_eq; intro i hi
  simp only [BitVec.getLsbD_and, getLsbD_perm π _ hi]

theorem perm_not {n m : Nat} {π : Nat → Nat} (hπ : ∀ i, i < m → π i < n) (x : BitVec n) :
    perm m π (~~~ x) = ~~~ perm m π x := by
  apply BitVec.eq_of_getLsbD_eq; intro i hi
  simp only [BitVec.getLsbD_not, getLsbD_perm π _ hi, hi, hπ i hi]

theorem perm_perm {n m k : Nat} {π ρ : Nat → Nat} (hρ : ∀ i, i < k → ρ i < m) (x : BitVec n) :
    perm k ρ (perm m π x) = perm k (fun i => π (ρ i)) x := by
  apply BitVec.eq_of_getLsbD_eq; intro i hi
  simp only [getLsbD_perm _ _ hi, getLsbD_perm _ _ (hρ i hi)]

theorem perm_congr {n m : Nat} {π ρ : Nat → Nat} (h : ∀ i, i < m → π i = ρ i) (x : BitVec n) :
    perm m π x = perm m ρ x := by
  apply BitVec.eq_of_getLsbD_eq; intro i hi
  simp only [getLsbD_perm _ _ hi, h i hi]

theorem perm_id {n : Nat} {π : Nat → Nat} (h : ∀ i, i < n → π i = i) (x : BitVec n) : perm n π x = x := by
  apply BitVec.eq_of_getLsbD_eq; intro i hi
  simp only [getLsbD_perm _ _ hi, h i hi]

theorem rotateRight_eq_perm {x : BitVec 64} {n : Nat} (h : n < 64) : x.rotateRight n = perm 64 (fun i => (i + n) % 64) x := by
  apply BitVec.eq_of_getLsbD_eq; intro i hi
  rw [getLsbD_perm _ _ hi, BitVec.getLsbD_rotateRight, Nat.mod_eq_of_lt h]
  by_cases h2 : i < 64 - n
  · simp only [h2, decide_true, cond_true]; rw [Nat.mod_eq_of_lt (by omega), Nat.add_comm]
  · simp only [h2, decide_false, cond_false, hi, decide_true, Bool.true_and]
    rw [show i - (64 - n) = (i + n) % 64 by omega]

/-- The part of `x` below bit `k`. -/
private def low {n : Nat} (x : BitVec n) (k : Nat) : BitVec n := ofBits n fun i => decide (i < k) && x.getLsbD i

private theorem low_zero {n : Nat} (x : BitVec n) : low x 0 = 0 := by
  apply BitVec.eq_of_getLsbD_eq; intro i hi
  simp [low, getLsbD_ofBits]

private theorem low_all {n : Nat} (x : BitVec n) : low x n = x := by
  apply BitVec.eq_of_getLsbD_eq; intro i hi
  rw [low, getLsbD_ofBits]; simp [hi]

private theorem low_succ_or {n : Nat} (x : BitVec n) (k : Nat) :
    low x (k + 1) = low x k ||| (if x.getLsbD k then BitVec.twoPow n k else 0) := by
  apply BitVec.eq_of_getLsbD_eq; intro i hi
  simp only [low, getLsbD_ofBits, BitVec.getLsbD_or, hi, decide_true, Bool.true_and]
  by_cases h : i = k
  · subst h
    cases hx : x.getLsbD i <;> simp [hi]
  · cases hx : x.getLsbD k <;> simp [BitVec.getLsbD_twoPow, show (k = i) = False by simp; omega] <;>
      by_cases h2 : i < k <;> simp [h2, show (i < k + 1) = (i < k) by simp; omega]

private theorem low_succ_xor {n : Nat} (x : BitVec n) (k : Nat) :
    low x (k + 1) = low x k ^^^ (if x.getLsbD k then BitVec.twoPow n k else 0) := by
  apply BitVec.eq_of_getLsbD_eq; intro i hi
  simp only [low, getLsbD_ofBits, BitVec.getLsbD_xor, hi, decide_true, Bool.true_and]
  by_cases h : i = k
  · subst h
    cases hx : x.getLsbD i <;> simp [hi]
  · cases hx : x.getLsbD k <;> simp [BitVec.getLsbD_twoPow, show (k = i) = False by simp; omega] <;>
      by_cases h2 : i < k <;> simp [h2, show (i < k + 1) = (i < k) by simp; omega]

/-- Two functions that preserve `|||` are equal if they agree on zero and on the single bits. -/
theorem or_ext {n m : Nat} {f g : BitVec n → BitVec m} (hf : ∀ x y, f (x ||| y) = f x ||| f y)
    (hg : ∀ x y, g (x ||| y) = g x ||| g y) (h0 : f 0 = g 0) (hb : ∀ i : Fin n, f (BitVec.twoPow n i) = g (BitVec.twoPow n i))
    (x : BitVec n) : f x = g x := by
  have key : ∀ k, k ≤ n → f (low x k) = g (low x k) := by
    intro k
    induction k with
    | zero => intro _; rw [low_zero, h0]
    | succ k ih =>
      intro hk
      rw [low_succ_or, hf, hg, ih (by omega)]
      cases x.getLsbD k
      · simp only [Bool.false_eq_true, if_false, h0]
      · simp [hb ⟨k, by omega⟩]
  have := key n (Nat.le_refl n)
  rwa [low_all] at this

/-- Two functions that preserve `^^^` are equal if they agree on the single bits. -/
theorem xor_ext {n m : Nat} {f g : BitVec n → BitVec m} (hf : ∀ x y, f (x ^^^ y) = f x ^^^ f y)
    (hg : ∀ x y, g (x ^^^ y) = g x ^^^ g y) (hb : ∀ i : Fin n, f (BitVec.twoPow n i) = g (BitVec.twoPow n i))
    (x : BitVec n) : f x = g x := by
  have f0 : f 0 = 0 := by have := hf 0 0; simpa using this
  have g0 : g 0 = 0 := by have := hg 0 0; simpa using this
  have key : ∀ k, k ≤ n → f (low x k) = g (low x k) := by
    intro k
    induction k with
    | zero => intro _; rw [low_zero, f0, g0]
    | succ k ih =>
      intro hk
      rw [low_succ_xor, hf, hg, ih (by omega)]
      cases x.getLsbD k
      · simp only [Bool.false_eq_true, if_false, f0, g0]
      · simp [hb ⟨k, by omega⟩]
  have := key n (Nat.le_refl n)
  rwa [low_all] at this

end Bits
