import Verif.Model.Hash
import Verif.Proof.Targets
/-!
# `crypto_hash` computes Ascon-Hash
-/

namespace Spec
open Ascon

/-- The state of Ascon-Hash after absorbing, over permutations `q`. -/
def hashW (q : Nat → State → State) (M : List Byte) : State := absorbW q 12 (q 12 ⟨ofBe64 AsconHash.iv, 0, 0, 0, 0⟩) M

/-- Ascon-Hash over permutations `q`. -/
def hashQ (q : Nat → State → State) (M : List Byte) : List Byte :=
  (List.range 4).flatMap fun i => be64 (Nat.repeat (q 12) i (hashW q M)).x0

theorem hash_words (M : List Byte) : AsconHash.hash M = hashQ p M := by
  have A : IsAscon p isapA128a := ⟨rfl, rfl, rfl⟩
  have h0 : AsconHash.iv ++ zeros 32 = toBytes ⟨ofBe64 AsconHash.iv, 0, 0, 0, 0⟩ := by
    simp only [toBytes]
    rw [be64_ofBe64 AsconHash.iv (by decide)]
    decide +kernel
  have hS : isapA128a.absorb (isapA128a.pH (AsconHash.iv ++ zeros 32)) (blocks isapA128a.r M) = toBytes (hashW p M) := by
    rw [h0, A.pH, A.absorb_words]
    rfl
  have hrep : ∀ i S, Nat.repeat isapA128a.pH i (toBytes S) = toBytes (Nat.repeat (p 12) i S) := by
    intro i S
    induction i with
    | zero => rfl
    | succ i ih => rw [Nat.repeat, ih, A.pH]; rfl
  show (List.range 4).flatMap (fun i => (Nat.repeat isapA128a.pH i
    (isapA128a.absorb (isapA128a.pH (AsconHash.iv ++ zeros 32)) (blocks isapA128a.r M))).take 8) = _
  rw [hS]
  simp only [hrep, take8, hashQ]

theorem length_hashQ (q : Nat → State → State) (M : List Byte) : (hashQ q M).length = 32 := by
  simp [hashQ, List.range_succ]

end Spec

namespace Model
open C Spec Spec.Ascon

namespace Opt
variable {D : Prims} {φ : BitVec 64 → BitVec 64} {q : Nat → State → State} {e : Env} {s : St}

theorem runs_cryptoHash (O : RepOK D φ q) {a : HashArgs} (hal : AlignedHash e a) (V : ValidHash e a) :
    Runs (cryptoHash D a.out a.inp a.inlen) e s 0 (putBytes s a.out (hashQ q (bytesAt s a.inp a.inlen))) := by
  unfold cryptoHash
  have hinit : (⟨D.toWord (le64 hashIV), 0, 0, 0, 0⟩ : State) = rep φ ⟨ofBe64 AsconHash.iv, 0, 0, 0, 0⟩ := by
    rw [O.toWord _ rfl]
    simp only [rep, O.zero]
    rfl
  rw [hinit]
  refine runs_bind (O.pH e s _) ?_
  refine runs_bind (runs_absorbLanes O _ hal.inp V.inp) ?_
  generalize hW : absorbW q 12 (q 12 ⟨ofBe64 AsconHash.iv, 0, 0, 0, 0⟩) (bytesAt s a.inp a.inlen) = W
  have hQ : ∀ j, ((List.range j).flatMap fun i => be64 (Nat.repeat (q 12) i W).x0).length = 8 * j := by
    intro j
    induction j with
    | zero => rfl
    | succ j ih => rw [List.range_succ, List.flatMap_append, List.length_append, ih]; simp; omega
  refine runs_bind (a := rep φ (Nat.repeat (q 12) 3 W))
    (s' := putBytes s a.out ((List.range 4).flatMap fun i => be64 (Nat.repeat (q 12) i W).x0)) ?_ ?_
  · have := runs_forN (f := squeezeStep D a.out) (e := e) 4 0 (fun j => rep φ (Nat.repeat (q 12) (min j 3) W))
      (fun j => putBytes s a.out ((List.range j).flatMap fun i => be64 (Nat.repeat (q 12) i W).x0)) ?_
    · rw [show (List.range 0).flatMap (fun i => be64 (Nat.repeat (q 12) i W).x0) = [] from rfl, putBytes_nil] at this
      exact this
    · intro j hj
      rw [Nat.zero_add]
      unfold squeezeStep
      refine runs_bind (a := ()) (runs_store64 (hal.out.add (by omega) (by omega)) (V.out.add (by omega))) ?_
      have hst : putBytes (putBytes s a.out ((List.range j).flatMap fun i => be64 (Nat.repeat (q 12) i W).x0)) (a.out + 8 * j)
          (toLe64 (D.fromWord (rep φ (Nat.repeat (q 12) (min j 3) W)).x0)) =
          putBytes s a.out ((List.range (j + 1)).flatMap fun i => be64 (Nat.repeat (q 12) i W).x0) := by
        rw [show (rep φ (Nat.repeat (q 12) (min j 3) W)).x0 = φ (Nat.repeat (q 12) (min j 3) W).x0 from rfl, O.fromWord,
          List.range_succ, List.flatMap_append, ← putBytes_append, hQ, show min j 3 = j by omega]
        simp
      rw [hst]
      by_cases h3 : j < 3
      · refine runs_if_true h3 ?_
        rw [show min j 3 = j by omega, show min (j + 1) 3 = j + 1 by omega]
        exact O.pH e _ _
      · refine runs_if_false h3 ?_
        rw [show min j 3 = 3 by omega, show min (j + 1) 3 = 3 by omega]
        exact runs_pure _ _ _
  · refine runs_eq2 (runs_pure _ _ _) rfl ?_
    rw [hashQ, hashW, hW]

end Opt

namespace Target

/-- What `crypto_hash` computes: Ascon-Hash, except for bi_32_armv7m. -/
def hashSpec (t : Target) : List Byte → List Byte := if t.conforming then AsconHash.hash else hashQ Opt.Armv7m.q

theorem length_hashSpec (t : Target) (M : List Byte) : (t.hashSpec M).length = 32 := by
  unfold hashSpec
  split
  · rw [hash_words]; exact length_hashQ _ _
  · exact length_hashQ _ _

theorem repOK_hash {t : Target} {D : Opt.Prims} (h : t.hashPrims = some D) :
    ∃ φ, Opt.RepOK D φ (if t.conforming then p else Opt.Armv7m.q) := by
  cases t <;> cases h
  case a128aOpt64 => exact ⟨_, Opt.Opt64.repOK⟩
  case a128aOpt32 => exact ⟨_, Opt.Opt32.repOK⟩
  case a128aOpt32Compact => exact ⟨_, Opt.Opt32.repOKCompact⟩
  case a128aOpt32Tiny => exact ⟨_, Opt.Opt32.repOKTiny⟩
  case a128aOpt32Stp => exact ⟨_, Opt.Opt32.stpOK.rep⟩
  case a128aOpt8 => exact ⟨_, Opt.Opt8.repOK⟩
  case a128aOpt8Tiny => exact ⟨_, Opt.Opt8.repOKTiny⟩
  case a128aBi8 => exact ⟨_, Opt.Bi8.repOK⟩
  case a128aBi32 => exact ⟨_, Opt.Bi32.repOK⟩
  case a128aBi32Compact => exact ⟨_, Opt.Bi32.repOKCompact⟩
  case a128aBi32Stp => exact ⟨_, Opt.Bi32.stpOK.rep⟩
  case a128aBi32Armv6 => exact ⟨_, Opt.Armv6.repOK⟩
  case a128aBi32Armv6m => exact ⟨_, Opt.Armv6m.repOK⟩
  case a128aBi32Armv6mCompact => exact ⟨_, Opt.Armv6m.repOKCompact⟩
  case a128aBi32Armv6mStp => exact ⟨_, Opt.Armv6m.stpOK.rep⟩
  case a128aBi32Armv7m => exact ⟨_, Opt.Armv7m.repOK⟩

/-- `crypto_hash`, for every implementation that has it. -/
theorem hash_run {t : Target} {f : Ptr → Ptr → Nat → CM Int} (h : t.hash = some f) {e : Env} {a : HashArgs}
    (hal : AlignedHash e a) (V : ValidHash e a) (s : St) :
    Runs (f a.out a.inp a.inlen) e s 0 (putBytes s a.out (t.hashSpec (bytesAt s a.inp a.inlen))) := by
  unfold Target.hash at h
  rw [Option.map_eq_some_iff] at h
  obtain ⟨D, hD, rfl⟩ := h
  obtain ⟨φ, O⟩ := repOK_hash hD
  have := Opt.runs_cryptoHash (s := s) O hal V
  unfold hashSpec
  split
  · rename_i hc
    rw [if_pos hc] at this
    rw [hash_words]
    exact this
  · rename_i hc
    rw [if_neg hc] at this
    exact this

end Target
end Model
