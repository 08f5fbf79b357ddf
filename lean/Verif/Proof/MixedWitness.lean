import Verif.Proof.MixedA
import Verif.Proof.BigEndianWitness
/-!
# Concrete tags and digests of `MixedA` on a big-endian platform
-/

namespace Model.MixedA
open C Spec Spec.Ascon

/-- The first half of the tag of nothing, with an all-zero key and nonce. -/
def half (F : Lanes) : List Byte := F.st (F.macFin (zeros 16) (F.macSt (zeros 16) [] [])).x0

/-- The same for the specification. -/
def specHalf (P : Params) : List Byte := be64 (macW pF P (zeros 16) (zeros 16) [] []).x0

set_option maxRecDepth 100000 in
theorem half_bi32 : half (MixedA.bi32.lanes .big) ≠ specHalf isapA128a := by decide +kernel

set_option maxRecDepth 100000 in
theorem half_bi8 : half (MixedA.bi8.lanes .big) ≠ specHalf isapA128a := by decide +kernel

set_option maxRecDepth 100000 in
theorem half_opt64 : half ((MixedA.a128Opt64 .lp64).lanes .big) ≠ specHalf isapA128 := by decide +kernel

set_option maxRecDepth 100000 in
theorem half_opt32 : half (MixedA.a128Opt32.lanes .big) ≠ specHalf isapA128 := by decide +kernel

theorem mac_ne_spec {F : Lanes} (hF : ∀ w, (F.st w).length = 8) {P : Params} (A : IsAscon p P) (h : half F ≠ specHalf P) :
    F.cipher.mac (zeros 16) (zeros 16) [] [] ≠ P.mac (zeros 16) (zeros 16) [] [] := by
  have hl : (zeros 16).length = 16 := by simp [zeros]
  rw [A.mac_words _ _ hl hl]
  intro hh
  have h8 := (List.append_inj (s₁ := half F) hh (by rw [length_be64]; exact hF _)).1
  rw [specHalf, pF_eq] at h
  exact h h8

/-- The tag of nothing with an all-zero key and nonce, on a big-endian platform. -/
theorem tag_ne (v : MixedA) : (v.lanes .big).cipher.mac (zeros 16) (zeros 16) [] [] ≠
    v.target.set.spec.mac (zeros 16) (zeros 16) [] [] :=
  have A : IsAscon p isapA128a := ⟨rfl, rfl, rfl⟩
  match v with
  | .bi32 => mac_ne_spec (length_st .bi32 .big) A half_bi32
  | .bi32Compact => mac_ne_spec (length_st .bi32Compact .big) A half_bi32
  | .bi8 => mac_ne_spec (length_st .bi8 .big) A half_bi8
  | .a128Opt64 _ => mac_ne_spec (length_st (.a128Opt64 .lp64) .big) A128.isAscon half_opt64
  | .a128Opt32 => mac_ne_spec (length_st .a128Opt32 .big) A128.isAscon half_opt32
  | .a128Opt32Arm => mac_ne_spec (length_st .a128Opt32Arm .big) A128.isAscon half_opt32

set_option maxRecDepth 100000 in
theorem hash_bi32 : ((MixedA.bi32.lanes .big).hash []).getD 0 0 ≠ (hashQ pF []).getD 0 0 := by decide +kernel

set_option maxRecDepth 100000 in
theorem hash_bi8 : ((MixedA.bi8.lanes .big).hash []).getD 0 0 ≠ (hashQ pF []).getD 0 0 := by decide +kernel

theorem digest_ne (v : MixedA) (h : v.hash .big ≠ none) : (v.lanes .big).hash [] ≠ AsconHash.hash [] := by
  have h1 := hash_bi32
  have h2 := hash_bi8
  rw [pF_eq] at h1 h2
  rw [hash_words]
  exact match v, h with
    | .bi32, _ => fun hh => h1 (congrArg (fun l => l.getD 0 0) hh)
    | .bi32Compact, _ => fun hh => h1 (congrArg (fun l => l.getD 0 0) hh)
    | .bi8, _ => fun hh => h2 (congrArg (fun l => l.getD 0 0) hh)
    | .a128Opt64 _, h => absurd rfl h
    | .a128Opt32, h => absurd rfl h
    | .a128Opt32Arm, h => absurd rfl h

end Model.MixedA
