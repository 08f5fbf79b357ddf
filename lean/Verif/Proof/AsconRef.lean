import Verif.Model.AsconRef
import Verif.Proof.AsconSpec
import Verif.Proof.RefMode
/-!
# `Ascon-reference.c` computes the Ascon permutation
-/

namespace Model.AsconRef
open C Spec
open Spec.Ascon (State)

theorem rotr_eq (x : BitVec 64) {n : Nat} (h : n < 64) : rotr x n = x.rotateRight n := by
  rw [BitVec.rotateRight_def, Nat.mod_eq_of_lt h, rotr]

theorem load64_eq (S : List Byte) : load64 S = ofBe64 S := by
  apply BitVec.eq_of_getLsbD_eq
  intro i hi
  rw [ofBe64, getLsbD_ofBits]
  simp only [load64, List.range, List.range.loop, List.foldl_cons, List.foldl_nil, BitVec.getLsbD_or,
    BitVec.getLsbD_shiftLeft, BitVec.getLsbD_setWidth, hi, decide_true, Bool.true_and]
  have hi8 : i / 8 < 8 := by omega
  generalize hq : i / 8 = q at hi8
  have hr : i % 8 < 8 := Nat.mod_lt _ (by omega)
  generalize hr' : i % 8 = r at hr
  have : i = 8 * q + r := by omega
  subst this
  clear hq hr' hi
  have hq' : q = 0 ∨ q = 1 ∨ q = 2 ∨ q = 3 ∨ q = 4 ∨ q = 5 ∨ q = 6 ∨ q = 7 := by omega
  rcases hq' with rfl | rfl | rfl | rfl | rfl | rfl | rfl | rfl
  all_goals
    have hr' : r = 0 ∨ r = 1 ∨ r = 2 ∨ r = 3 ∨ r = 4 ∨ r = 5 ∨ r = 6 ∨ r = 7 := by omega
    rcases hr' with rfl | rfl | rfl | rfl | rfl | rfl | rfl | rfl <;> simp

theorem store64_eq (x : BitVec 64) : store64 x = be64 x := by
  unfold store64 be64
  apply List.map_congr_left
  intro i hi
  have : i < 8 := List.mem_range.1 hi
  rw [show 56 - i * 8 = 8 * (7 - i) by omega]

theorem const_eq {i : Nat} (h : i < 12) : (((0xf - BitVec.ofNat 64 i) <<< 4) ||| BitVec.ofNat 64 i) = Ascon.rc i := by
  revert i; decide

theorem round_eq {i : Nat} (h : i < 12) (s : State) : round i s = Ascon.round i s := by
  rw [Ascon.round, Ascon.sub_eq]
  obtain ⟨x0, x1, x2, x3, x4⟩ := s
  simp only [round, const_eq h, Ascon.lin, Ascon.sigma, Ascon.subSliced, BitVec.xor_assoc,
    rotr_eq _ (show 19 < 64 by omega), rotr_eq _ (show 28 < 64 by omega), rotr_eq _ (show 61 < 64 by omega),
    rotr_eq _ (show 39 < 64 by omega), rotr_eq _ (show 1 < 64 by omega), rotr_eq _ (show 6 < 64 by omega),
    rotr_eq _ (show 10 < 64 by omega), rotr_eq _ (show 17 < 64 by omega), rotr_eq _ (show 7 < 64 by omega),
    rotr_eq _ (show 41 < 64 by omega)]

theorem roundLoop_eq (n : Nat) : ∀ (i : Nat) (s : State), i + n ≤ 12 → roundLoop i n s = Ascon.rounds i n s := by
  induction n with
  | zero => intro i s _; rfl
  | succ n ih =>
    intro i s h
    rw [roundLoop, Ascon.rounds, round_eq (by omega), ih _ _ (by omega)]

theorem runs_permute {e : Env} {s : St} (S : List Byte) {n : Nat} (h : n ≤ 12) :
    Runs (permute S n) e s (Ascon.perm n S) s := by
  refine runs_bind (runs_assert (by simp [h]) _ _) (runs_eq (runs_pure _ _ _) ?_)
  simp only [load64_eq, store64_eq, roundLoop_eq n _ _ (show 12 - n + n ≤ 12 by omega)]
  rfl

theorem wfA128a : isapA128a.Wf :=
  ⟨by decide, by decide, by decide, fun k S _ => Ascon.length_perm k S⟩
theorem wfA128 : isapA128.Wf :=
  ⟨by decide, by decide, by decide, fun k S _ => Ascon.length_perm k S⟩

theorem cfgA128a_ok : Ref.CfgOK cfgA128a isapA128a where
  wf := wfA128a
  n := rfl
  r := rfl
  sH := rfl
  sB := rfl
  sE := rfl
  sK := rfl
  perm := fun e s S k hk _ => runs_permute S (by revert k; decide)

theorem cfgA128_ok : Ref.CfgOK cfgA128 isapA128 where
  wf := wfA128
  n := rfl
  r := rfl
  sH := rfl
  sB := rfl
  sE := rfl
  sK := rfl
  perm := fun e s S k hk _ => runs_permute S (by revert k; decide)

end Model.AsconRef
