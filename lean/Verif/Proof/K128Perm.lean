import Verif.Model.K128
import Verif.Proof.KeccakFlat
/-!
# The optimized permutations of ISAP-K compute Keccak-p[400]: opt_64 and avx512
-/

namespace C.Simd
open Spec

theorem getLsbD_tern (imm : BitVec 8) (a b c : BitVec w) {i : Nat} (hi : i < w) : (tern imm a b c).getLsbD i =
    imm.getLsbD (4 * (a.getLsbD i).toNat + 2 * (b.getLsbD i).toNat + (c.getLsbD i).toNat) := by
  rw [tern, getLsbD_ofBits]; simp only [hi, decide_true, Bool.true_and]

theorem tern_96 (a b c : BitVec w) : tern 0x96#8 a b c = a ^^^ b ^^^ c := by
  apply BitVec.eq_of_getLsbD_eq
  intro i hi
  rw [getLsbD_tern _ _ _ _ hi]
  simp only [BitVec.getLsbD_xor]
  generalize a.getLsbD i = x, b.getLsbD i = y, c.getLsbD i = z
  revert x y z; decide

theorem tern_d2 (a b c : BitVec w) : tern 0xd2#8 a b c = a ^^^ (~~~ b &&& c) := by
  apply BitVec.eq_of_getLsbD_eq
  intro i hi
  rw [getLsbD_tern _ _ _ _ hi]
  simp only [BitVec.getLsbD_xor, BitVec.getLsbD_and, BitVec.getLsbD_not, hi, decide_true, Bool.true_and]
  generalize a.getLsbD i = x, b.getLsbD i = y, c.getLsbD i = z
  revert x y z; decide

theorem tern_69 (a b c : BitVec w) : tern 0x69#8 a b c = ~~~ (a ^^^ b ^^^ c) := by
  apply BitVec.eq_of_getLsbD_eq
  intro i hi
  rw [getLsbD_tern _ _ _ _ hi]
  simp only [BitVec.getLsbD_xor, BitVec.getLsbD_not, hi, decide_true, Bool.true_and]
  generalize a.getLsbD i = x, b.getLsbD i = y, c.getLsbD i = z
  revert x y z; decide

end C.Simd

namespace Model.K128
open C Spec KeccakRef

theorem rc_eq : ∀ i < 20, Opt64.roundConstants.getD i 0 = Keccak.rc i := by decide

theorem rounds_succ (i n : Nat) (A : Lanes) :
    Keccak.rounds i (n + 1) A = Keccak.round (i + n) (Keccak.rounds i n A) := by
  induction n generalizing i A with
  | zero => rfl
  | succ n ih => rw [Keccak.rounds, ih]; rw [show i + 1 + n = i + (n + 1) by omega]; rfl

namespace Opt64

theorem thetaRhoPiChiIota_eq (rc : BitVec 16) (A : Lanes) : thetaRhoPiChiIota rc A (prepareTheta A) = flat rc A := rfl

theorem prepare_fst (rc : BitVec 16) (A : Lanes) :
    (thetaRhoPiChiIotaPrepareTheta rc A (prepareTheta A)).1 = flat rc A := rfl

theorem prepare_snd (rc : BitVec 16) (A : Lanes) :
    (thetaRhoPiChiIotaPrepareTheta rc A (prepareTheta A)).2 = prepareTheta (flat rc A) := rfl

theorem roundsPT_eq (i n : Nat) (h : i + n ≤ 20) (A : Lanes) :
    roundsPT i n (A, prepareTheta A) = (Keccak.rounds i n A, prepareTheta (Keccak.rounds i n A)) := by
  induction n generalizing i A with
  | zero => rfl
  | succ n ih =>
    rw [roundsPT]
    have : thetaRhoPiChiIotaPrepareTheta (roundConstants.getD i 0) A (prepareTheta A) =
        (Keccak.round i A, prepareTheta (Keccak.round i A)) := by
      rw [rc_eq i (by omega), ← flat_eq]
      exact Prod.ext (prepare_fst _ _) (prepare_snd _ _)
    rw [this, ih (i + 1) (by omega)]
    rfl

theorem roundsX_eq {n : Nat} (h0 : 0 < n) (h : n ≤ 20) (A : Lanes) : roundsX n A = Keccak.p n A := by
  unfold roundsX Keccak.p
  rw [roundsPT_eq _ _ (by omega)]
  show thetaRhoPiChiIota _ _ (prepareTheta _) = _
  rw [thetaRhoPiChiIota_eq, rc_eq 19 (by omega), flat_eq]
  obtain ⟨m, rfl⟩ : ∃ m, n = m + 1 := ⟨n - 1, by omega⟩
  rw [rounds_succ, Nat.add_sub_cancel, show 20 - (m + 1) + m = 19 by omega]

theorem rounds1X_eq (A : Lanes) : rounds1X A = Keccak.p 1 A := by
  unfold rounds1X
  rw [prepare_fst, rc_eq 19 (by omega), flat_eq]
  rfl

end Opt64

namespace Avx

/-- The 25 lanes in the low part of a vector. -/
def low (A : V) : Lanes := Vector.ofFn fun i => A[i.val]'(by omega)

theorem getElem_low (A : V) {i : Nat} (h : i < 25) : (low A)[i] = A[i] := by simp [low]

theorem rho_or (x : BitVec 16) {n : Nat} (h : n < 16) : (x <<< n) ||| (x >>> (16 - n)) = rol16 x n := by
  rw [rol16_eq _ h, BitVec.rotateLeft_def, Nat.mod_eq_of_lt h]

theorem rrho_eq : ∀ i : Fin 25, (rrho[i.val]).toNat = 16 - (lrho[i.val]).toNat ∧ (lrho[i.val]).toNat < 16 := by decide

/-- Word `i` of `D` before the rotation. -/
def parD (A : V) : V := Vector.ofFn fun i => (permutexvar ptheta1 A)[i] ^^^ (permutexvar ptheta2 A)[i] ^^^
    (permutexvar ptheta3 A)[i] ^^^ ((permutexvar ptheta4 A)[i]) ^^^ (permutexvar ptheta5 A)[i]

/-- The state after `θ`. -/
def thetaV (A : V) : V := Vector.ofFn fun i => A[i] ^^^ (((parD A)[i] <<< 1) ||| ((parD A)[i] >>> 15)) ^^^
  (permutexvar ptheta6 (parD A))[i]

/-- The state after `ρ`. -/
def rhoV (A : V) : V := Vector.ofFn fun i => (A[i] <<< lrho[i].toNat) ||| (A[i] >>> rrho[i].toNat)

theorem round_eq (rc : BitVec 16) (A : V) : thetaRhoPiChiIota rc A =
    (let B := permutexvar ppi (rhoV (thetaV A))
     Vector.ofFn fun i => B[i] ^^^ (~~~ (permutexvar pchi1 B)[i] &&& (permutexvar pchi2 B)[i]) ^^^ (setRc rc)[i]) := by
  have h1 : ternarylogic (ternarylogic (permutexvar ptheta1 A) (permutexvar ptheta2 A) (permutexvar ptheta3 A) 0x96)
      (permutexvar ptheta4 A) (permutexvar ptheta5 A) 0x96 = parD A := by
    apply Vector.ext
    intro i hi
    simp [ternarylogic, Simd.tern_96, parD]
  unfold thetaRhoPiChiIota
  simp only [h1]
  have h2 : ternarylogic A (vor (slli (parD A) 1) (srli (parD A) 15)) (permutexvar ptheta6 (parD A)) 0x96 = thetaV A := by
    apply Vector.ext
    intro i hi
    simp [ternarylogic, Simd.tern_96, thetaV, vor, slli, srli]
  simp only [h2]
  have h3 : vor (sllv (thetaV A) lrho) (srlv (thetaV A) rrho) = rhoV (thetaV A) := by
    apply Vector.ext
    intro i hi
    simp [vor, sllv, srlv, rhoV]
  simp only [h3]
  apply Vector.ext
  intro i hi
  simp [ternarylogic, Simd.tern_d2, vxor]

theorem getElem_permutexvar (idx a : V) {i : Nat} (h : i < 32) :
    (permutexvar idx a)[i] = a[idx[i].toNat % 32]'(Nat.mod_lt _ (by decide)) := by simp [permutexvar]

theorem getElem_permutexvar' (idx a : V) {i j : Nat} (h : i < 32) (hj : idx[i].toNat % 32 = j) (hj' : j < 32) :
    (permutexvar idx a)[i] = a[j] := by subst hj; exact getElem_permutexvar _ _ _

theorem ptheta1_eq : ∀ i : Fin 25, (ptheta1[i.val]).toNat % 32 = (i.val % 5 + 1) % 5 + 5 * (i.val / 5 % 5) := by decide
theorem ptheta2_eq : ∀ i : Fin 25, (ptheta2[i.val]).toNat % 32 = (i.val % 5 + 1) % 5 + 5 * ((i.val / 5 + 1) % 5) := by decide
theorem ptheta3_eq : ∀ i : Fin 25, (ptheta3[i.val]).toNat % 32 = (i.val % 5 + 1) % 5 + 5 * ((i.val / 5 + 2) % 5) := by decide
theorem ptheta4_eq : ∀ i : Fin 25, (ptheta4[i.val]).toNat % 32 = (i.val % 5 + 1) % 5 + 5 * ((i.val / 5 + 3) % 5) := by decide
theorem ptheta5_eq : ∀ i : Fin 25, (ptheta5[i.val]).toNat % 32 = (i.val % 5 + 1) % 5 + 5 * ((i.val / 5 + 4) % 5) := by decide

theorem getElem_lane (A : V) (x y : Nat) : A[x % 5 + 5 * (y % 5)]'(by omega) = Keccak.lane (low A) x y := by
  rw [Keccak.lane, getElem_low _ (by omega)]

theorem px1 (A : V) {i : Nat} (hi : i < 25) :
    (permutexvar ptheta1 A)[i] = Keccak.lane (low A) (i % 5 + 1) (i / 5) := by
  rw [← getElem_lane]
  exact getElem_permutexvar' _ _ _ (ptheta1_eq ⟨i, hi⟩) _

theorem px2 (A : V) {i : Nat} (hi : i < 25) :
    (permutexvar ptheta2 A)[i] = Keccak.lane (low A) (i % 5 + 1) (i / 5 + 1) := by
  rw [← getElem_lane]
  exact getElem_permutexvar' _ _ _ (ptheta2_eq ⟨i, hi⟩) _

theorem px3 (A : V) {i : Nat} (hi : i < 25) :
    (permutexvar ptheta3 A)[i] = Keccak.lane (low A) (i % 5 + 1) (i / 5 + 2) := by
  rw [← getElem_lane]
  exact getElem_permutexvar' _ _ _ (ptheta3_eq ⟨i, hi⟩) _

theorem px4 (A : V) {i : Nat} (hi : i < 25) :
    (permutexvar ptheta4 A)[i] = Keccak.lane (low A) (i % 5 + 1) (i / 5 + 3) := by
  rw [← getElem_lane]
  exact getElem_permutexvar' _ _ _ (ptheta4_eq ⟨i, hi⟩) _

theorem px5 (A : V) {i : Nat} (hi : i < 25) :
    (permutexvar ptheta5 A)[i] = Keccak.lane (low A) (i % 5 + 1) (i / 5 + 4) := by
  rw [← getElem_lane]
  exact getElem_permutexvar' _ _ _ (ptheta5_eq ⟨i, hi⟩) _

theorem getElem_parD (A : V) {i : Nat} (hi : i < 32) : (parD A)[i] = (permutexvar ptheta1 A)[i] ^^^
    (permutexvar ptheta2 A)[i] ^^^ (permutexvar ptheta3 A)[i] ^^^ (permutexvar ptheta4 A)[i] ^^^ (permutexvar ptheta5 A)[i] := by
  rw [parD, Vector.getElem_ofFn]; rfl

theorem parity_rot (A : Lanes) (x y : Nat) (hy : y < 5) : Keccak.lane A x y ^^^ Keccak.lane A x (y + 1) ^^^
    Keccak.lane A x (y + 2) ^^^ Keccak.lane A x (y + 3) ^^^ Keccak.lane A x (y + 4) = Keccak.parity A x := by
  have h5 : ∀ k, Keccak.lane A x (k + 5) = Keccak.lane A x k := by
    intro k; simp only [Keccak.lane]; congr 2; omega
  have h : y = 0 ∨ y = 1 ∨ y = 2 ∨ y = 3 ∨ y = 4 := by omega
  unfold Keccak.parity
  have e5 := h5 0; have e6 := h5 1; have e7 := h5 2; have e8 := h5 3
  simp only [Nat.reduceAdd] at e5 e6 e7 e8
  rcases h with rfl | rfl | rfl | rfl | rfl <;> simp only [Nat.reduceAdd, e5, e6, e7, e8] <;> ac_rfl

theorem parD_eq (A : V) {i : Nat} (hi : i < 25) : (parD A)[i] = Keccak.parity (low A) (i % 5 + 1) := by
  rw [getElem_parD, px1 A hi, px2 A hi, px3 A hi, px4 A hi, px5 A hi]
  exact parity_rot _ _ _ (by omega)

theorem ptheta6_eq : ∀ i : Fin 25, (ptheta6[i.val]).toNat % 32 < 25 ∧ ((ptheta6[i.val]).toNat % 32 + 1) % 5 = (i.val + 4) % 5 := by
  decide

theorem lrho_eq : ∀ i : Fin 25, (lrho[i.val]).toNat = Keccak.rhoOffset (i.val % 5) (i.val / 5) := by decide

theorem ppi_eq : ∀ i : Fin 25, (ppi[i.val]).toNat % 32 = (i.val % 5 + 3 * (i.val / 5)) % 5 + 5 * (i.val % 5) := by decide

theorem pchi1_eq : ∀ i : Fin 25, (pchi1[i.val]).toNat % 32 = (i.val % 5 + 1) % 5 + 5 * (i.val / 5) := by decide

theorem pchi2_eq : ∀ i : Fin 25, (pchi2[i.val]).toNat % 32 = (i.val % 5 + 2) % 5 + 5 * (i.val / 5) := by decide

attribute [local irreducible] pchi1 pchi2 ppi lrho rrho ptheta1 ptheta2 ptheta3 ptheta4 ptheta5 ptheta6

theorem parity_mod (A : Lanes) {x y : Nat} (h : x % 5 = y % 5) : Keccak.parity A x = Keccak.parity A y := by
  simp only [Keccak.parity, Keccak.lane, h]

theorem getElem_thetaV (A : V) {i : Nat} (hi : i < 32) : (thetaV A)[i] =
    A[i] ^^^ (((parD A)[i] <<< 1) ||| ((parD A)[i] >>> 15)) ^^^ (permutexvar ptheta6 (parD A))[i] := by
  rw [thetaV, Vector.getElem_ofFn]; rfl

theorem px6 (A : V) {i : Nat} (hi : i < 25) :
    (permutexvar ptheta6 (parD A))[i] = Keccak.parity (low A) (i + 4) := by
  have h6 := ptheta6_eq ⟨i, hi⟩
  rw [getElem_permutexvar' ptheta6 _ (by omega) rfl (by omega), parD_eq A h6.1]
  apply parity_mod
  rw [Nat.mod_add_mod]
  exact h6.2

theorem thetaV_eq (A : V) {i : Nat} (hi : i < 25) : (thetaV A)[i] =
    A[i] ^^^ (Keccak.parity (low A) (i + 4) ^^^ rol16 (Keccak.parity (low A) (i + 1)) 1) := by
  rw [getElem_thetaV, px6 A hi, parD_eq A hi, parity_mod (low A) (x := i % 5 + 1) (y := i + 1) (by omega),
    ← rho_or _ (by omega : (1 : Nat) < 16), BitVec.xor_assoc]
  congr 1
  exact BitVec.xor_comm _ _

theorem getElem_rhoV (A : V) {i : Nat} (hi : i < 32) :
    (rhoV A)[i] = (A[i] <<< lrho[i].toNat) ||| (A[i] >>> rrho[i].toNat) := by
  rw [rhoV, Vector.getElem_ofFn]; rfl

theorem rhoV_eq (A : V) {i : Nat} (hi : i < 25) :
    (rhoV A)[i] = rol16 A[i] (Keccak.rhoOffset (i % 5) (i / 5)) := by
  have h1 := rrho_eq ⟨i, hi⟩
  have h2 := lrho_eq ⟨i, hi⟩
  simp only at h1 h2
  rw [getElem_rhoV, h1.1, rho_or _ h1.2, h2]

theorem pi_eq (A : V) {i : Nat} (hi : i < 25) : (permutexvar ppi (rhoV (thetaV A)))[i] =
    Keccak.lane (Keccak.pi (Keccak.rho (Keccak.theta (low A)))) (i % 5) (i / 5) := by
  have hj : (i % 5 + 3 * (i / 5)) % 5 + 5 * (i % 5) < 25 := by omega
  have e1 : ((i % 5 + 3 * (i / 5)) % 5 + 5 * (i % 5)) % 5 = (i % 5 + 3 * (i / 5)) % 5 := by omega
  have e2 : ((i % 5 + 3 * (i / 5)) % 5 + 5 * (i % 5)) / 5 = i % 5 := by omega
  have e3 : i / 5 % 5 = i / 5 := by omega
  have hl : A[(i % 5 + 3 * (i / 5)) % 5 + 5 * (i % 5)]'(by omega) =
      Keccak.lane (low A) (i % 5 + 3 * (i / 5)) (i % 5) := by
    simp only [Keccak.lane, Nat.mod_mod]; rw [getElem_low _ (by omega)]
  rw [getElem_permutexvar' ppi _ (by omega) (ppi_eq ⟨i, hi⟩) (by simp only; omega)]
  refine (rhoV_eq _ hj).trans ?_
  rw [thetaV_eq _ hj, lane_prb, hl,
    parity_mod (low A) (x := (i % 5 + 3 * (i / 5)) % 5 + 5 * (i % 5) + 4) (y := i % 5 + 3 * (i / 5) + 4) (by omega),
    parity_mod (low A) (x := (i % 5 + 3 * (i / 5)) % 5 + 5 * (i % 5) + 1) (y := i % 5 + 3 * (i / 5) + 1) (by omega),
    e1, e2]
  simp only [Nat.mod_mod, e3]

theorem chi1_eq (B : V) {i : Nat} (hi : i < 25) :
    (permutexvar pchi1 B)[i] = Keccak.lane (low B) (i % 5 + 1) (i / 5) := by
  rw [← getElem_lane]
  exact getElem_permutexvar' _ _ _ ((pchi1_eq ⟨i, hi⟩).trans (by simp only; omega)) _

theorem chi2_eq (B : V) {i : Nat} (hi : i < 25) :
    (permutexvar pchi2 B)[i] = Keccak.lane (low B) (i % 5 + 2) (i / 5) := by
  rw [← getElem_lane]
  exact getElem_permutexvar' _ _ _ ((pchi2_eq ⟨i, hi⟩).trans (by simp only; omega)) _

theorem low_pi (A : V) : low (permutexvar ppi (rhoV (thetaV A))) = Keccak.pi (Keccak.rho (Keccak.theta (low A))) := by
  apply Vector.ext
  intro i hi
  rw [getElem_low _ hi, pi_eq A hi, Keccak.lane]
  congr 1; omega

theorem low_round {r : Nat} (A : V) : low (thetaRhoPiChiIota (Keccak.rc r) A) = Keccak.round r (low A) := by
  rw [round_eq, Keccak.round, ← low_pi]
  generalize permutexvar ppi (rhoV (thetaV A)) = B
  apply Vector.ext
  intro i hi
  rw [getElem_low _ hi, Vector.getElem_ofFn]
  show B[i] ^^^ (~~~ (permutexvar pchi1 B)[i] &&& (permutexvar pchi2 B)[i]) ^^^ (setRc (Keccak.rc r))[i] = _
  rw [chi1_eq B hi, chi2_eq B hi, ← getElem_low B hi]
  have e3 : i / 5 % 5 = i / 5 := by omega
  have e4 : (low B)[i] = Keccak.lane (low B) (i % 5) (i / 5) := by rw [Keccak.lane]; congr 1; omega
  have e5 : ∀ k, Keccak.lane (low B) (i % 5 + k) (i / 5) = Keccak.lane (low B) (i % 5 % 5 + k) (i / 5 % 5) := by
    intro k; rw [Nat.mod_mod, e3]
  have e6 : (setRc (Keccak.rc r))[i] = if i = 0 then Keccak.rc r else 0 := by rw [setRc, Vector.getElem_ofFn]
  rw [e4, e6, Keccak.iota, Keccak.ofLanes, Vector.getElem_ofFn]
  simp only [Keccak.chi, Keccak.lane_ofLanes]
  by_cases h0 : i = 0
  · subst h0; rw [if_pos rfl, if_pos (by decide)]
  · rw [if_neg h0, if_neg (by omega)]
    simp only [Nat.mod_mod, e3]
    exact BitVec.xor_zero

theorem low_roundLoop (i n : Nat) (h : i + n ≤ 20) (A : V) : low (roundLoop i n A) = Keccak.rounds i n (low A) := by
  induction n generalizing i A with
  | zero => rfl
  | succ n ih => rw [roundLoop, ih _ (by omega), rc_eq _ (by omega), low_round]; rfl

theorem words_low (S : List Byte) : low (words S) = Keccak.ofBytes (S.take 50) := by
  apply Vector.ext
  intro i hi
  simp only [low, words, Keccak.ofBytes, Vector.getElem_ofFn]
  simp [List.getD, show 2 * i + 1 < 50 by omega, show 2 * i < 50 by omega]

theorem unwords_low (A : V) : (unwords A).take 50 = Keccak.toBytes (low A) ∧ (unwords A).length = 64 := by
  have : A.toList = (List.range 25).map (fun i => Keccak.lane (low A) (i % 5) (i / 5)) ++ A.toList.drop 25 := by
    apply List.ext_getElem
    · simp
    · intro i h1 h2
      simp only [Vector.length_toList] at h1
      rw [List.getElem_append]
      split
      · rename_i hi
        simp only [List.length_map, List.length_range] at hi
        simp only [Vector.getElem_toList, List.getElem_map, List.getElem_range, Keccak.lane]
        rw [getElem_low _ (by omega)]
        congr 1; omega
      · rename_i hi
        simp only [List.length_map, List.length_range] at hi
        simp only [List.getElem_drop, List.length_map, List.length_range]
        congr 1; omega
  constructor
  · rw [unwords, this, List.flatMap_append, List.flatMap_map]
    have hl := Keccak.length_toBytes (low A)
    exact (List.take_append_of_le_length (by exact Nat.le_of_eq hl.symm)).trans (List.take_of_length_le (by exact Nat.le_of_eq hl))
  · rw [unwords, List.length_flatMap]; simp; rw [List.map_const', List.sum_replicate_nat]; simp

theorem perm_eq {n : Nat} (h : n ≤ 20) (S : List Byte) :
    (perm n S).take 50 = Keccak.perm n (S.take 50) ∧ (perm n S).length = 64 := by
  refine ⟨?_, (unwords_low _).2⟩
  rw [perm, (unwords_low _).1, low_roundLoop _ _ (by omega), words_low]
  rfl


end Avx

end Model.K128
