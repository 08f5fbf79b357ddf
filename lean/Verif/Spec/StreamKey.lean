import Verif.Spec.Isap
/-!
# ISAP_ENC from its derived key
-/

namespace Spec

/-- ISAP_ENC with nonce `N`, computed from the derived key `KE` instead of the key. -/
def Params.encFrom (P : Params) (KE N M : List Byte) : List Byte :=
  M.mapIdx fun i b => b ^^^ (Nat.repeat P.pE (i / P.r + 1) (KE ++ N)).getD (i % P.r) 0

/-- ISAP_ENC uses the key for the derivation only. -/
theorem Params.enc_eq_encFrom (P : Params) (K N M : List Byte) : P.enc K N M = P.encFrom (P.rk K P.ivKE N (P.n - 16)) N M := rfl

end Spec
