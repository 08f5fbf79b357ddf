import Verif.Spec.Ascon
import Verif.Spec.Keccak
/-!
# Specification: ISAP v2.0 and Ascon-Hash

Written from the ISAP v2.0 submission document (algorithms ISAP_RK, ISAP_MAC, ISAP_ENC, authenticated
encryption and verified decryption) with `k = 128`, `r_B = 1`.
-/

namespace Spec

/-- An ISAP instance. -/
structure Params where
  /-- state size in bytes -/
  n : Nat
  /-- rate of the MAC and of the encryption in bytes -/
  r : Nat
  /-- round numbers -/
  sH : Nat
  sB : Nat
  sE : Nat
  sK : Nat
  /-- `perm s` is the `s`-round permutation on strings of `n` bytes -/
  perm : Nat → List Byte → List Byte

namespace Params
variable (P : Params)

def pH (S : List Byte) : List Byte := P.perm P.sH S
def pB (S : List Byte) : List Byte := P.perm P.sB S
def pE (S : List Byte) : List Byte := P.perm P.sE S
def pK (S : List Byte) : List Byte := P.perm P.sK S

/-- Initial values: purpose byte, `k`, `r_H`, `r_B` in bits, and the round numbers. -/
def iv (purpose : Nat) : List Byte :=
  [BitVec.ofNat 8 purpose, 128, BitVec.ofNat 8 (8 * P.r), 1,
   BitVec.ofNat 8 P.sH, BitVec.ofNat 8 P.sB, BitVec.ofNat 8 P.sE, BitVec.ofNat 8 P.sK]

def ivA : List Byte := P.iv 1
def ivKA : List Byte := P.iv 2
def ivKE : List Byte := P.iv 3

/-- `K ‖ IV ‖ 0*` -/
def initState (K iv : List Byte) : List Byte := K ++ iv ++ zeros (P.n - 24)

/-- One bit followed by zeros, as a byte. -/
def bitByte (b : Bool) : Byte := if b then 0x80 else 0

/-- ISAP_RK: `z` bytes derived from the key and the string `Y`, absorbed bit by bit. -/
def rk (K iv Y : List Byte) (z : Nat) : List Byte :=
  let ys := bits Y
  let S := P.pK (P.initState K iv)
  let S := ys.dropLast.foldl (fun S b => P.pB (xorFront S [bitByte b])) S
  let S := P.pK (xorFront S [bitByte (ys.getLastD false)])
  S.take z

/-- Absorb blocks with `p_H`. -/
def absorb (S : List Byte) (Bs : List (List Byte)) : List Byte :=
  Bs.foldl (fun S B => P.pH (xorFront S B)) S

/-- Xor the bit 1 into the last bit of the state. -/
def domSep (S : List Byte) : List Byte := S.take (P.n - 1) ++ xorFront (S.drop (P.n - 1)) [0x01]

/-- ISAP_MAC: 16-byte tag of the nonce, the associated data and the ciphertext. -/
def mac (K N A C : List Byte) : List Byte :=
  let S := P.pH (P.initState N P.ivA)
  let S := P.absorb S (blocks P.r A)
  let S := P.domSep S
  let S := P.absorb S (blocks P.r C)
  let KA := P.rk K P.ivKA (S.take 16) 16
  let S := P.pH (KA ++ S.drop 16)
  S.take 16

/-- Initial state of the keystream generator. -/
def encInit (K N : List Byte) : List Byte := P.rk K P.ivKE N (P.n - 16) ++ N

/-- Byte `i` of the keystream: block `i / r` is the rate part after `i / r + 1` calls of `p_E`. -/
def keystream (K N : List Byte) (i : Nat) : Byte :=
  (Nat.repeat P.pE (i / P.r + 1) (P.encInit K N)).getD (i % P.r) 0

/-- ISAP_ENC: xor with the keystream (encryption and decryption). -/
def enc (K N M : List Byte) : List Byte := M.mapIdx fun i b => b ^^^ P.keystream K N i

/-- Authenticated encryption: ciphertext body followed by the tag. -/
def encrypt (K N A M : List Byte) : List Byte :=
  let C := P.enc K N M
  C ++ P.mac K N A C

/-- Verified decryption of body and tag. -/
def decrypt (K N A C T : List Byte) : Option (List Byte) :=
  if T = P.mac K N A C then some (P.enc K N C) else none

end Params

/-- ISAP-A-128a -/
def isapA128a : Params := { n := 40, r := 8, sH := 12, sB := 1, sE := 6, sK := 12, perm := Ascon.perm }
/-- ISAP-A-128 -/
def isapA128 : Params := { n := 40, r := 8, sH := 12, sB := 12, sE := 12, sK := 12, perm := Ascon.perm }
/-- ISAP-K-128a -/
def isapK128a : Params := { n := 50, r := 18, sH := 16, sB := 1, sE := 8, sK := 8, perm := Keccak.perm }
/-- ISAP-K-128 -/
def isapK128 : Params := { n := 50, r := 18, sH := 20, sB := 12, sE := 12, sK := 12, perm := Keccak.perm }

namespace AsconHash

/-- `k = 0 ‖ r = 64 ‖ a = 12 ‖ 0 ‖ h = 256` (32 bits). -/
def iv : List Byte := [0x00, 0x40, 0x0c, 0x00, 0x00, 0x00, 0x01, 0x00]

/-- Ascon-Hash: 8-byte rate, 12 rounds, 32 bytes of output. -/
def hash (M : List Byte) : List Byte :=
  let p := Ascon.perm 12
  let S := p (iv ++ zeros 32)
  let S := (blocks 8 M).foldl (fun S B => p (xorFront S B)) S
  (List.range 4).flatMap fun i => (Nat.repeat p i S).take 8

end AsconHash
end Spec
