import Verif.Spec.Isap
import Verif.Model.Targets
import Verif.Model.Hash
/-!
# Known answers (tests, not proofs)

The specification and the models of the implementations, run on some of the test vectors that come with the repository
(`/repo/crypto_aead/isap*/LWC_AEAD_KAT_128_128.txt`, `/repo/crypto_aead_hash/isapa128av20/LWC_HASH_KAT_256.txt`).  No theorem
depends on this file: its purpose is to show that the specification that the theorems refer to is ISAP v2.0 and Ascon-Hash, and
that the models compute what the code is documented to compute.  (The ARM models of ISAP-A that execute assembler on a register file
are too slow to run here.)
-/

namespace Test.Kat
open Spec C Model

def hexDigit (c : Char) : Nat := if c.isDigit then c.toNat - '0'.toNat else c.toNat - 'A'.toNat + 10

def hexBytes : List Char → List Byte
  | a :: b :: l => BitVec.ofNat 8 (16 * hexDigit a + hexDigit b) :: hexBytes l
  | _ => []

/-- Bytes from hexadecimal digits. -/
def hex (s : String) : List Byte := hexBytes s.toList

/-- The strings `00 01 02 ...` from which the vectors are computed. -/
def str (n : Nat) : List Byte := (List.range n).map (BitVec.ofNat 8)

/-- A vector: length of message and associated data, ciphertext with tag. -/
abbrev Vec := Nat × Nat × String

/-- From `isapa128av20/LWC_AEAD_KAT_128_128.txt`. -/
def a128a : List Vec := [
  (0, 0, "7B94EF35AE55AB272C9C44D6C1CF0102"),
  (0, 9, "A510A73839FD7778A28C57597D553835"),
  (1, 0, "2CFACF138C6FDBBCC8763A7205FD66316D"),
  (8, 17, "2CDE28DBBBD9131E3CB666625F697B13AE839E80B46756B4"),
  (19, 1, "2CDE28DBBBD9131EBC568D77725B25937CF8ED4973C72DB06C14922A984DA8BE67F4E9"),
  (32, 32, "2CDE28DBBBD9131EBC568D77725B25937CF8EDB8A8F50A2ACEDA356C3CA3D46BAF83B960928F1E4CC975EA24F488202C")]

/-- From `isapa128v20/LWC_AEAD_KAT_128_128.txt`. -/
def a128 : List Vec := [
  (0, 0, "79A08D4D8B9F23D3699CBB91174DD67B"),
  (0, 9, "0EA86DB28155B24BE09E1DD51512BCE8"),
  (1, 0, "B8681B221A6DAE4BFD96E8FCC8FB6FF81C"),
  (8, 17, "B8529BCE1B3F9D0DAA4F3D0B893E66D4591DD88CD495DBCE"),
  (19, 1, "B8529BCE1B3F9D0DB7A9C8DD43DD35D18E41807C122914126B9D4F79017B89EA8C990D"),
  (32, 32, "B8529BCE1B3F9D0DB7A9C8DD43DD35D18E41801A814A29A999102227A4AA747BA0FAC4D683F5B1CFBF3683112F3FCC1B")]

/-- From `isapk128av20/LWC_AEAD_KAT_128_128.txt`. -/
def k128a : List Vec := [
  (0, 0, "1AA1F2F89901A41B0664C695D4D7ABB9"),
  (0, 9, "6D22C308533673998AC3929049703054"),
  (1, 0, "0146D98980E2F815A5A5A43B48EABDF748"),
  (8, 17, "01BC9CCB186E4A3748753E1062F481509DB7D287DCF2B491"),
  (19, 1, "01BC9CCB186E4A3732E86B9FAC4ABF3E6C4A82DCB942F5929A67E360385297A2E768A3"),
  (32, 32, "01BC9CCB186E4A3732E86B9FAC4ABF3E6C4A8274A185FF3443158CC56F13B59A0B6851D49C3E6049B766C013443433EC")]

/-- From `isapk128v20/LWC_AEAD_KAT_128_128.txt`. -/
def k128 : List Vec := [
  (0, 0, "104E625D372E27EEE4D4E3CE1CA39D1B"),
  (0, 9, "89343263D3CF67F59B7C711B820CC61B"),
  (1, 0, "599F434C5D63E9DEB47C2C67A5113A4F3E"),
  (8, 17, "59D5A45BCBCB33238B109D9F6531299B6F4D58A7961B93AA"),
  (19, 1, "59D5A45BCBCB332311869B73F633D29606056B79F4426721819B8D762B8A212B81445D"),
  (32, 32, "59D5A45BCBCB332311869B73F633D29606056B791F8A684E4D876CC1B7AD73A37CABFFC9C255FB9531F303E966332FFD")]

/-- From `LWC_HASH_KAT_256.txt`. -/
def hash : List (Nat × String) := [
  (0, "7346BC14F036E87AE03D0997913088F5F68411434B3CF8B54FA796A80D251F91"),
  (1, "8DD446ADA58A7740ECF56EB638EF775F7D5C0FD5F0C2BBBDFDEC29609D3C43A2"),
  (7, "DD409CCC0C60CD7F474C0BEED1E1CD48140AD45D5136DC5FDA5EBE283DF8D3F6"),
  (8, "F4C6A44B29915D3D57CF928A18EC6226BB8DD6C1136ACD24965F7E7780CD69CF"),
  (9, "1E1E710D08A78263773331782621088CA9FE2EE4F596F06C8F7884CA564ACEC1"),
  (33, "A6DF1844412BAD536A98DB01024C73A8780BE1A7099375696D37430586BA9381"),
  (300, "F0540385F19450078C5343C5B4D404E7E931EDEA88FFDB1BDAAB4D369EF354A7")]

/-- The vectors of a parameter set. -/
def vecs : ParamSet → List Vec
  | .a128a => a128a
  | .a128 => a128
  | .k128a => k128a
  | .k128 => k128

/-! ## The specification -/

/-- `Params.enc` with the initial state computed once. -/
def enc (P : Params) (K N M : List Byte) : List Byte :=
  let S := P.encInit K N
  M.mapIdx fun i b => b ^^^ (Nat.repeat P.pE (i / P.r + 1) S).getD (i % P.r) 0

theorem enc_eq : enc = Params.enc := rfl

def encrypt (P : Params) (K N A M : List Byte) : List Byte :=
  let C := enc P K N M
  C ++ P.mac K N A C

theorem encrypt_eq : encrypt = Params.encrypt := rfl

def specOK (p : ParamSet) (n : Nat) : Bool := ((vecs p).take n).all fun (m, a, c) => encrypt p.spec (str 16) (str 16) (str a) (str m) == hex c

#guard specOK .a128a 6
#guard specOK .a128 4
#guard specOK .k128a 6
#guard specOK .k128 3
#guard hash.all fun (m, d) => AsconHash.hash (str m) == hex d

/-! ## The implementations -/

/-- Every object has 64 bytes. -/
def env : Env := ⟨fun _ o => decide (o < 64), fun _ o => decide (o < 64), fun _ => 0, false⟩

/-- Object 0 receives the ciphertext, object 1 its length, object 7 the plaintext, object 8 its length; the others are inputs. -/
def st : St := ⟨fun b o => if b = 0 ∨ b = 1 ∨ b = 7 ∨ b = 8 then 0xee else BitVec.ofNat 8 o, 0, 0⟩

/-- Encrypt, compare with the vector, decrypt, compare with the message; change a byte of the ciphertext, decrypt. -/
def targetOK (t : Target) (vs : List Vec) : Bool := vs.all fun (m, a, c) =>
  match run (t.aead.encrypt ⟨⟨0, 0⟩, ⟨1, 0⟩, ⟨2, 0⟩, m, ⟨3, 0⟩, a, ⟨6, 0⟩, ⟨4, 0⟩, ⟨5, 0⟩⟩) env st with
  | .ok r s _ => r == 0 && bytesAt s ⟨0, 0⟩ (m + 16) == hex c && bytesAt s ⟨1, 0⟩ 8 == toLe64 (BitVec.ofNat 64 (m + 16)) &&
    match run (t.aead.decrypt ⟨⟨7, 0⟩, ⟨8, 0⟩, ⟨6, 0⟩, ⟨0, 0⟩, m + 16, ⟨3, 0⟩, a, ⟨4, 0⟩, ⟨5, 0⟩⟩) env s with
    | .ok r s _ => r == 0 && bytesAt s ⟨7, 0⟩ m == str m &&
      match run (t.aead.decrypt ⟨⟨7, 0⟩, ⟨8, 0⟩, ⟨6, 0⟩, ⟨0, 0⟩, m + 16, ⟨3, 0⟩, a, ⟨4, 0⟩, ⟨5, 0⟩⟩) env
        (putBytes s ⟨0, m / 2⟩ [s.mem 0 (m / 2) ^^^ 0x10]) with
      | .ok r _ _ => r == -1
      | .ub _ => false
    | .ub _ => false
  | .ub _ => false

/-- Compute a digest. -/
def hashOK (f : Ptr → Ptr → Nat → CM Int) : Bool := (hash.take 6).all fun (m, d) =>
  match run (f ⟨0, 0⟩ ⟨2, 0⟩ m) env st with
  | .ok r s _ => r == 0 && bytesAt s ⟨0, 0⟩ 32 == hex d
  | .ub _ => false

#guard targetOK (.ref .a128a) a128a
#guard targetOK (.ref .a128) a128
#guard targetOK (.ref .k128a) (k128a.take 4)
#guard targetOK (.ref .k128) (k128.take 2)
#guard targetOK .a128aOpt64 a128a
#guard targetOK .a128aOpt32 a128a
#guard targetOK .a128aOpt32Compact a128a
#guard targetOK .a128aOpt32Tiny a128a
#guard targetOK .a128aOpt32Stp a128a
#guard targetOK .a128aOpt8 a128a
#guard targetOK .a128aOpt8Tiny a128a
#guard targetOK .a128aBi8 a128a
#guard targetOK .a128aBi32 a128a
#guard targetOK .a128aBi32Compact a128a
#guard targetOK .a128aBi32Stp a128a
#guard targetOK (.a128aAvx512 .lp64) a128a
#guard targetOK (.a128Opt64 .lp64) a128
#guard targetOK .a128Opt32 a128
#guard targetOK .k128aOpt64 k128a
#guard targetOK .k128aOpt32Armv6m k128a
#guard targetOK .k128aOpt32Armv7m k128a
#guard targetOK .k128Opt64 k128
#guard targetOK .k128Opt32Armv6m k128
#guard targetOK .k128Opt32Armv7m k128
#guard [Target.a128aOpt64, .a128aOpt32, .a128aOpt8, .a128aBi8, .a128aBi32].all fun t => t.hash.any hashOK

end Test.Kat
