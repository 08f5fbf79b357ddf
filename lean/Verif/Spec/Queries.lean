import Verif.Spec.Stp
/-!
# Specification: which inputs the permutation is applied to

For each algorithm of ISAP, the list of the pairs (number of rounds, input) on which the definition in `Spec.Isap` evaluates
the permutation.
-/

namespace Spec.Params
variable (P : Params)

/-- Inputs of the permutation while blocks are absorbed into the state `S` with `s` rounds each. -/
def absorbQueries (s : Nat) (S : List Byte) : List (List Byte) → List (Nat × List Byte)
  | [] => []
  | B :: Bs => (s, xorFront S B) :: absorbQueries s (P.perm s (xorFront S B)) Bs

/-- State of ISAP_RK after all bits of `Y` but the last. -/
def rkLast (K iv Y : List Byte) : List Byte :=
  (bits Y).dropLast.foldl (fun S b => P.pB (xorFront S [bitByte b])) (P.pK (P.initState K iv))

/-- ISAP_RK: once on the key and the initial value, once for each bit of `Y`. -/
def rkQueries (K iv Y : List Byte) : List (Nat × List Byte) :=
  (P.sK, P.initState K iv) ::
    P.absorbQueries P.sB (P.pK (P.initState K iv)) ((bits Y).dropLast.map fun b => [bitByte b]) ++
    [(P.sK, xorFront (P.rkLast K iv Y) [bitByte ((bits Y).getLastD false)])]

/-- State of ISAP_MAC before the bit that separates associated data and ciphertext. -/
def macMiddle (N A : List Byte) : List Byte := P.absorb (P.pH (P.initState N P.ivA)) (blocks P.r A)

/-- ISAP_MAC: on the nonce, for each block of the associated data and of the ciphertext, in the derivation of the session key,
and on the final state. -/
def macQueries (K N A C : List Byte) : List (Nat × List Byte) :=
  (P.sH, P.initState N P.ivA) ::
    P.absorbQueries P.sH (P.pH (P.initState N P.ivA)) (blocks P.r A) ++
    P.absorbQueries P.sH (P.domSep (P.macMiddle N A)) (blocks P.r C) ++
    P.rkQueries K P.ivKA ((P.macState N A C).take 16) ++
    [(P.sH, P.rk K P.ivKA ((P.macState N A C).take 16) 16 ++ (P.macState N A C).drop 16)]

/-- ISAP_ENC of `len` bytes: none if there is nothing to encrypt; else in the derivation of the session key, and once for each
started block of the keystream. -/
def encQueries (K N : List Byte) (len : Nat) : List (Nat × List Byte) :=
  if len = 0 then []
  else P.rkQueries K P.ivKE N ++
    (List.range ((len + P.r - 1) / P.r)).map fun j => (P.sE, Nat.repeat P.pE j (P.encInit K N))

/-- Authenticated encryption. -/
def encryptQueries (K N A M : List Byte) : List (Nat × List Byte) :=
  P.encQueries K N M.length ++ P.macQueries K N A (P.enc K N M)

/-- Comparison of the received tag `T` through the permutation. -/
def stpQueries (K N A C T : List Byte) : List (Nat × List Byte) :=
  [(7, T ++ (P.macState N A C).take 16 ++ zeros 8), (7, P.mac K N A C ++ (P.macState N A C).take 16 ++ zeros 8)]

open Classical in
/-- Verified decryption with the acceptance test `acc`, which makes the queries `test`: the keystream is only computed if the tag
is accepted. -/
noncomputable def decryptQueries (acc : Prop) (test : List (Nat × List Byte)) (K N A C : List Byte) : List (Nat × List Byte) :=
  P.macQueries K N A C ++ test ++ if acc then P.encQueries K N C.length else []

end Spec.Params
