import Verif.Spec.Isap
/-!
# Files of known answers

The text format of the files `LWC_AEAD_KAT_128_128.txt` and `LWC_HASH_KAT_256.txt`: for every pair of lengths a record with
consecutive numbers, all inputs being the bytes `00 01 02 ...`.
-/

namespace Spec.Kat

/-- The bytes `00 01 02 ...` -/
def ramp (n : Nat) : List Byte := (List.range n).map (BitVec.ofNat 8)

def hexDigit (n : Nat) : Char := "0123456789ABCDEF".toList.getD n '?'

/-- A byte in hexadecimal. -/
def hex (b : Byte) : List Char := [hexDigit (b.toNat / 16), hexDigit (b.toNat % 16)]

/-- A line `label`, bytes in hexadecimal. -/
def line (label : String) (bs : List Byte) : List Char := label.toList ++ bs.flatMap hex ++ "\n".toList

/-- The line with the number of a record. -/
def countLine (count : Nat) : List Char := "Count = ".toList ++ (toString count).toList ++ "\n".toList

/-- The record of one test vector; `E K N A M` is the ciphertext with tag. -/
def record (E : (K N A M : List Byte) → List Byte) (mlen adlen count : Nat) : List Char :=
  countLine count ++ line "Key = " (ramp 16) ++ line "Nonce = " (ramp 16) ++ line "PT = " (ramp mlen) ++
    line "AD = " (ramp adlen) ++ line "CT = " (E (ramp 16) (ramp 16) (ramp adlen) (ramp mlen)) ++ "\n".toList

/-- The whole file. -/
def katFile (E : (K N A M : List Byte) → List Byte) (maxM maxAd : Nat) : List Char :=
  (List.range (maxM + 1)).flatMap fun m => (List.range (maxAd + 1)).flatMap fun a => record E m a ((maxAd + 1) * m + a + 1)

/-- The record of one test vector of a hash function. -/
def hashRecord (H : List Byte → List Byte) (mlen count : Nat) : List Char :=
  countLine count ++ line "Msg = " (ramp mlen) ++ line "MD = " (H (ramp mlen)) ++ "\n".toList

/-- The whole file. -/
def hashFile (H : List Byte → List Byte) (maxM : Nat) : List Char := (List.range (maxM + 1)).flatMap fun m => hashRecord H m (m + 1)

end Spec.Kat
