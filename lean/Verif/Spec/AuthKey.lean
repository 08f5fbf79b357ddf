import Verif.Spec.Stp
/-!
# The session key of ISAP_MAC
-/

namespace Spec

/-- The session key that ISAP_MAC derives from the key and from what it has absorbed. -/
def Params.authKey (P : Params) (K N A C : List Byte) : List Byte := P.rk K P.ivKA ((P.macState N A C).take 16) 16

/-- The tag for nonce `N`, associated data `A` and ciphertext `C`, computed from the session key `KA`. -/
def Params.tagFrom (P : Params) (KA N A C : List Byte) : List Byte := (P.pH (KA ++ (P.macState N A C).drop 16)).take 16

/-- ISAP_MAC is the composition of the two. -/
theorem Params.mac_eq_tagFrom (P : Params) (K N A C : List Byte) : P.mac K N A C = P.tagFrom (P.authKey K N A C) N A C := rfl

end Spec
