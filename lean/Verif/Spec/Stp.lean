import Verif.Spec.Isap
/-!
# Specification: tag comparison through the permutation

As in Fig. 3 of https://eprint.iacr.org/2021/402.pdf, which the code cites: the received tag is not compared with the
computed one directly; the 7-round permutations of both, next to 16 secret bytes, are compared in their first 16 bytes.
-/

namespace Spec

/-- State of ISAP_MAC after absorbing everything, before the re-keying. -/
def Params.macState (P : Params) (N A C : List Byte) : List Byte :=
  let S := P.pH (P.initState N P.ivA)
  let S := P.absorb S (blocks P.r A)
  let S := P.domSep S
  P.absorb S (blocks P.r C)

namespace Stp

/-- The value compared in place of the tag `T`; `S` is the state of ISAP_MAC. -/
def image (P : Params) (S T : List Byte) : List Byte := (P.perm 7 (T ++ S.take 16 ++ zeros 8)).take 16

/-- The received tag `T` is accepted. -/
def Accepts (P : Params) (K N A C T : List Byte) : Prop :=
  image P (P.macState N A C) T = image P (P.macState N A C) (P.mac K N A C)

instance : Decidable (Accepts P K N A C T) := by unfold Accepts; infer_instance

end Stp
end Spec
