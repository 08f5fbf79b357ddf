import Verif.Proof.BigEndian
/-!
# Concrete tags and digests computed on a big-endian platform
-/

namespace Model.Opt.Ord
open C Spec Spec.Ascon

set_option maxRecDepth 100000 in
theorem tag_words : (macW (bigQ pF) isapA128a (zeros 16) (zeros 16) [] []).x0 ≠ (macW pF isapA128a (zeros 16) (zeros 16) [] []).x0 := by
  decide +kernel

set_option maxRecDepth 100000 in
theorem tag_bytes : (macW (bigQ (fun n S => revS (pF n (revS S)))) isapA128a (zeros 16) (zeros 16) [] []).x0 ≠
    (macW pF isapA128a (zeros 16) (zeros 16) [] []).x0 := by
  decide +kernel

set_option maxRecDepth 100000 in
theorem hash_ne : (hashQ (bigQ pF) []).getD 0 0 ≠ (hashQ pF []).getD 0 0 := by
  decide +kernel

/-- `macW` uses only the round numbers and the initialization vectors of the parameter set. -/
theorem macW_congr (g : Nat → State → State) {P P' : Params} (h1 : P.sH = P'.sH) (h2 : P.sB = P'.sB) (h3 : P.sK = P'.sK)
    (h4 : P.iv = P'.iv) (K N A C : List Byte) : macW g P K N A C = macW g P' K N A C := by
  unfold macW macSt rkW
  rw [h1, h2, h3, h4]

theorem iv_perm (P : Params) (f : Nat → List Byte → List Byte) : { P with perm := f }.iv = P.iv := rfl

/-- The permutation of the parameter set is not used by `macW`. -/
theorem macW_perm (P : Params) (f : Nat → List Byte → List Byte) (g : Nat → State → State) (K N A C : List Byte) :
    macW g { P with perm := f } K N A C = macW g P K N A C :=
  macW_congr g rfl rfl rfl (iv_perm P f) K N A C

theorem mac_ne {P P' : Params} {g q : Nat → State → State} (A : IsAscon g P) (A' : IsAscon q P') {K N : List Byte}
    (hK : K.length = 16) (hN : N.length = 16) (h : (macW g P K N [] []).x0 ≠ (macW q P' K N [] []).x0) :
    P.mac K N [] [] ≠ P'.mac K N [] [] := by
  rw [A.mac_words _ _ hK hN, A'.mac_words _ _ hK hN]
  intro hh
  have h8 := (List.append_inj hh (by rw [length_be64, length_be64])).1
  have h9 := congrArg ofBe64 h8
  rw [ofBe64_be64, ofBe64_be64] at h9
  exact h h9

theorem mac_ne_of {g q : Nat → State → State} {K N : List Byte} (hK : K.length = 16) (hN : N.length = 16)
    (h : (macW g isapA128a K N [] []).x0 ≠ (macW q isapA128a K N [] []).x0) :
    (PQ g).mac K N [] [] ≠ (PQ q).mac K N [] [] := by
  refine mac_ne isAscon isAscon hK hN fun hh => h ?_
  exact (congrArg State.x0 (macW_perm isapA128a _ g K N [] [])).symm.trans
    (hh.trans (congrArg State.x0 (macW_perm isapA128a _ q K N [] [])))

end Model.Opt.Ord

namespace Model.PortableA
open C Spec Spec.Ascon Model.Opt.Ord
open Model.Opt (PQ)

/-- The tag of nothing with an all-zero key and nonce, on a big-endian platform. -/
theorem tag_ne (v : PortableA) :
    (PQ (v.q .big)).mac (zeros 16) (zeros 16) [] [] ≠ isapA128a.mac (zeros 16) (zeros 16) [] [] := by
  have hl : (zeros 16).length = 16 := by simp [zeros]
  have h1 := mac_ne_of hl hl tag_words
  have h2 := mac_ne_of hl hl tag_bytes
  have q1 : bigQ pF = bigQ p := congrArg bigQ pF_eq
  have q2 : (bigQ fun n S => revS (pF n (revS S))) = bigQ Opt8.revP := by
    rw [pF_eq]
    exact congrArg bigQ (rfl : (fun n S => revS (p n (revS S))) = Opt8.revP)
  rw [q1, pF_eq, Opt.PQ_p] at h1
  rw [q2, pF_eq, Opt.PQ_p] at h2
  have e : v.q .big = bigQ p ∨ v.q .big = bigQ Opt8.revP := by
    match v with
    | .opt64 => exact Or.inl rfl
    | .opt32 => exact Or.inl rfl
    | .opt32Compact => exact Or.inl rfl
    | .opt32Tiny => exact Or.inl rfl
    | .opt8 => exact Or.inr rfl
    | .opt8Tiny => exact Or.inr rfl
  rcases e with e | e
  · rw [e]; exact h1
  · rw [e]; exact h2

theorem digest_ne (v : PortableA) (hv : ¬ (v = .opt8 ∨ v = .opt8Tiny)) : hashQ (v.q .big) [] ≠ AsconHash.hash [] := by
  have h := hash_ne
  have e : v.q .big = bigQ p := by
    match v, hv with
    | .opt64, _ => exact rfl
    | .opt32, _ => exact rfl
    | .opt32Compact, _ => exact rfl
    | .opt32Tiny, _ => exact rfl
    | .opt8, hv => exact absurd (Or.inl rfl) hv
    | .opt8Tiny, hv => exact absurd (Or.inr rfl) hv
  rw [pF_eq] at h
  rw [hash_words, e]
  exact fun hh => h (congrArg (fun l => l.getD 0 0) hh)

end Model.PortableA
