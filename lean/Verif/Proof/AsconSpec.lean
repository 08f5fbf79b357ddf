import Verif.Spec.Ascon
import Verif.Proof.SpecLemmas
/-!
# Lemmas about the Ascon specification
-/

namespace Spec

theorem getLsbD_ofBits (n : Nat) (f : Nat → Bool) (i : Nat) : (ofBits n f).getLsbD i = (decide (i < n) && f i) := by
  induction n generalizing i with
  | zero => simp [ofBits]
  | succ n ih =>
    simp only [ofBits, BitVec.getLsbD_cons, ih]
    by_cases h : i = n
    · subst h; simp
    · by_cases h2 : i < n
      · simp [h, h2, show i < n + 1 by omega]
      · simp [h, h2, show ¬ i < n + 1 by omega]

@[simp] theorem length_be64 (x : BitVec 64) : (be64 x).length = 8 := by simp [be64]

theorem getD_be64 (x : BitVec 64) {i : Nat} (h : i < 8) : (be64 x).getD i 0 = (x >>> (8 * (7 - i))).setWidth 8 := by
  simp [be64, List.getD, h]

theorem ofBe64_be64_append (x : BitVec 64) (rest : List Byte) : ofBe64 (be64 x ++ rest) = x := by
  apply BitVec.eq_of_getLsbD_eq
  intro i hi
  rw [ofBe64, getLsbD_ofBits]
  have : (be64 x ++ rest).getD (7 - i / 8) 0 = (be64 x).getD (7 - i / 8) 0 := by
    simp only [List.getD]
    rw [List.getElem?_append_left (by simp; omega)]
  rw [this, getD_be64 x (by omega)]
  simp only [hi, decide_true, Bool.true_and, BitVec.getLsbD_setWidth, BitVec.getLsbD_ushiftRight,
    Nat.mod_lt i (show 8 > 0 by omega)]
  congr 1; omega

theorem ofBe64_be64 (x : BitVec 64) : ofBe64 (be64 x) = x := by
  simpa using ofBe64_be64_append x []

theorem be64_ofBe64 (b : List Byte) (h : 8 ≤ b.length) : be64 (ofBe64 b) = b.take 8 := by
  apply List.ext_getElem
  · simp; omega
  · intro i h1 h2
    simp only [length_be64] at h1
    simp only [be64, List.getElem_map, List.getElem_range, List.getElem_take]
    apply BitVec.eq_of_getLsbD_eq
    intro j hj
    rw [BitVec.getLsbD_setWidth, BitVec.getLsbD_ushiftRight, ofBe64, getLsbD_ofBits]
    have e1 : 7 - (8 * (7 - i) + j) / 8 = i := by omega
    have e2 : (8 * (7 - i) + j) % 8 = j := by omega
    rw [e1, e2]
    simp [hj, show 8 * (7 - i) + j < 64 by omega, List.getD, show i < b.length by omega]

theorem ofBe64_take (b : List Byte) : ofBe64 (b.take 8) = ofBe64 b := by
  unfold ofBe64
  congr 1
  funext i
  have : (b.take 8).getD (7 - i / 8) 0 = b.getD (7 - i / 8) 0 := by
    simp only [List.getD, List.getElem?_take]; rw [if_pos (by omega)]
  rw [this]

/-- Xor of words is xor of bytes. -/
theorem be64_xor (x y : BitVec 64) : be64 (x ^^^ y) = xorBytes (be64 x) (be64 y) := by
  apply List.ext_getElem
  · simp [xorBytes]
  · intro i h1 h2
    simp [be64, xorBytes, BitVec.ushiftRight_xor_distrib]

namespace Ascon

@[simp] theorem length_toBytes (s : State) : (toBytes s).length = 40 := by simp [toBytes]

theorem drop_be64_append (x : BitVec 64) (rest : List Byte) (k : Nat) : (be64 x ++ rest).drop (k + 8) = rest.drop k := by
  rw [Nat.add_comm, ← List.drop_drop, List.drop_left' (by simp)]

theorem ofBytes_toBytes (s : State) : ofBytes (toBytes s) = s := by
  simp only [ofBytes, toBytes, List.append_assoc]
  have d := drop_be64_append
  apply State.ext'
  · exact ofBe64_be64_append _ _
  · simp only [d _ _ 0, List.drop_zero]; exact ofBe64_be64_append _ _
  · simp only [d _ _ 8, d _ _ 0, List.drop_zero]; exact ofBe64_be64_append _ _
  · simp only [d _ _ 16, d _ _ 8, d _ _ 0, List.drop_zero]; exact ofBe64_be64_append _ _
  · simp only [d _ _ 24, d _ _ 16, d _ _ 8, d _ _ 0, List.drop_zero]; exact ofBe64_be64 _

theorem toBytes_ofBytes (b : List Byte) (h : b.length = 40) : toBytes (ofBytes b) = b := by
  have hs : ∀ k, k ≤ 32 → be64 (ofBe64 (b.drop k)) = (b.drop k).take 8 := fun k hk => be64_ofBe64 _ (by simp; omega)
  have h0 : be64 (ofBe64 b) = b.take 8 := by simpa using hs 0 (by omega)
  simp only [toBytes, ofBytes, hs 8 (by omega), hs 16 (by omega), hs 24 (by omega), hs 32 (by omega), h0]
  have key : ∀ k, (b.drop k).take 8 ++ b.drop (k + 8) = b.drop k := by
    intro k
    rw [← List.drop_drop, List.take_append_drop]
  have h32 : (b.drop 32).take 8 = b.drop 32 := List.take_of_length_le (by simp; omega)
  rw [h32]
  simp only [List.append_assoc]
  rw [key 24, key 16, key 8]
  simp

theorem toBytes_inj {s t : State} (h : toBytes s = toBytes t) : s = t := by
  rw [← ofBytes_toBytes s, h, ofBytes_toBytes]

theorem perm_toBytes (n : Nat) (s : State) : perm n (toBytes s) = toBytes (p n s) := by
  rw [perm, ofBytes_toBytes]

theorem length_perm (n : Nat) (b : List Byte) : (perm n b).length = 40 := by simp [perm]

/-- The S-box layer in the bit-sliced form of the Ascon document. -/
def subSliced (s : State) : State :=
  let x0 := s.x0 ^^^ s.x4
  let x4 := s.x4 ^^^ s.x3
  let x2 := s.x2 ^^^ s.x1
  let x1 := s.x1
  let x3 := s.x3
  let y0 := x0 ^^^ (~~~ x1 &&& x2)
  let y1 := x1 ^^^ (~~~ x2 &&& x3)
  let y2 := x2 ^^^ (~~~ x3 &&& x4)
  let y3 := x3 ^^^ (~~~ x4 &&& x0)
  let y4 := x4 ^^^ (~~~ x0 &&& x1)
  ⟨y0 ^^^ y4, y1 ^^^ y0, ~~~ y2, y3 ^^^ y2, y4⟩

theorem getLsbD_subWord (k : Nat) (s : State) {i : Nat} (h : i < 64) : (subWord k s).getLsbD i =
    sbox k (s.x0.getLsbD i) (s.x1.getLsbD i) (s.x2.getLsbD i) (s.x3.getLsbD i) (s.x4.getLsbD i) := by
  rw [subWord, getLsbD_ofBits]; simp [h]

theorem sub_eq (s : State) : sub s = subSliced s := by
  apply State.ext' <;> apply BitVec.eq_of_getLsbD_eq <;> intro i hi <;> simp only [sub, getLsbD_subWord _ _ hi] <;>
    simp only [subSliced, BitVec.getLsbD_xor, BitVec.getLsbD_and, BitVec.getLsbD_not, hi, decide_true, Bool.true_and] <;>
    generalize s.x0.getLsbD i = a0 <;> generalize s.x1.getLsbD i = a1 <;> generalize s.x2.getLsbD i = a2 <;>
    generalize s.x3.getLsbD i = a3 <;> generalize s.x4.getLsbD i = a4 <;>
    revert a0 a1 a2 a3 a4 <;> decide

theorem rounds_succ' (i n : Nat) (s : State) : rounds i (n + 1) s = round (i + n) (rounds i n s) := by
  induction n generalizing i s with
  | zero => rfl
  | succ n ih =>
    rw [rounds, ih (i + 1) (round i s), rounds, show i + 1 + n = i + (n + 1) by omega]

theorem rounds_add (i n m : Nat) (s : State) : rounds i (n + m) s = rounds (i + n) m (rounds i n s) := by
  induction n generalizing i s with
  | zero => simp [rounds]
  | succ n ih => rw [Nat.succ_add, rounds, ih, rounds, show i + 1 + n = i + (n + 1) by omega]

end Ascon
end Spec
