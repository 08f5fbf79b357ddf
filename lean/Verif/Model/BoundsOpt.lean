import Verif.C.Array
import Verif.Model.Hash
/-!
# The optimized ISAP-A-128a versions with checked accesses to their arrays

As `Model/Api.lean`, `Model/OptMode.lean`, `Model/Stp.lean` and `Model/Hash.lean`, but every access to an array of the
functions, to the bytes of a `lane_t` and to the constant tables is an access to a `C.Arr` or goes through `ix8`, which fails
with `UB.localOob` outside.  Accesses with a literal index (`s->x[0]`, `s->b[0][7]`) to the state union are those of the
original model.  The permutations have no arrays indexed by variables, except for the byte rotations of opt_8 and bi_8, whose
indices are masked with 7 (`opt_8/asconp.h`); they are those of the original model.
-/

namespace Model
open C

namespace Chk

/-- `crypto_aead_decrypt`, `crypto_aead/isapa128av20/opt_64/crypto_aead.c` lines 29-61, with the array `tag[16]` (line 43) and
its elements `tag[i]` (line 49). -/
def decrypt (I : Impl) (m mlen _nsec c : Ptr) (clen : Nat) (ad : Ptr) (adlen : Nat) (npub k : Ptr) : CM Int := do
  storeLen mlen (clen + (2 ^ 64 - 16))
  let l ← loadLen mlen
  let t ← I.mac k npub ad adlen c l
  let tag ← awrites (Arr.new 16) 0 t
  let eqCnt ← forN 16 0 (fun i (cnt : Nat) => do
    let l ← loadLen mlen
    let b ← load8 (c + (l + i))
    let ti ← aget tag i
    pure (cnt + if ti = b then 1 else 0)) 0
  let ok ← branch (eqCnt = 16)
  if ok then
    let l ← loadLen mlen
    ifThen (l > 0) do
      let l ← loadLen mlen
      I.enc k npub c l m
    pure 0
  else
    pure (-1)

/-- The API of an implementation with the common `crypto_aead.c`. -/
def aead (I : Impl) : Aead where
  encrypt := I.aead.encrypt
  decrypt a := decrypt I a.m a.mlen a.nsec a.c a.clen a.ad a.adlen a.npub a.k

end Chk

namespace Opt.Chk

/-- The index `j` into an array of 8 bytes (`x.b[j]` of a `lane_t`, `lane8[j]`).  `j` is an integer: differences can be
negative.  `isapa128av20/opt_64/asconp.h` lines 7-12. -/
def ix8 (j : Int) : CM Nat := if 0 ≤ j ∧ j < 8 then pure j.toNat else ub .localOob

/-- The words of `state_t`.  `isapa128av20/opt_64/asconp.h` lines 14-20. -/
def words (s : State) : List (BitVec 64) := [s.x0, s.x1, s.x2, s.x3, s.x4]

/-- The whole `state_t`.  `isapa128av20/opt_64/asconp.h` lines 14-20. -/
def readState (a : Arr (BitVec 64)) : CM State := do
  let x0 ← aget a 0
  let x1 ← aget a 1
  let x2 ← aget a 2
  let x3 ← aget a 3
  let x4 ← aget a 4
  pure ⟨x0, x1, x2, x3, x4⟩

variable (D : Prims)

/-- `ABSORB_LANES`, lines 20-40, with the index of `t0.b[7 - i]` in line 27 and in line 30 (there `i` is `len`). -/
def absorbTail (s : State) (src : Ptr) (len : Nat) : CM State := do
  let b ← branch (len > 0)
  if b then
    let t0 ← forN len 0 (fun i (t0 : BitVec 64) => do
      let d ← load8 (src + i)
      let j ← ix8 (7 - i)
      pure (xorByte t0 j d)) 0
    let j ← ix8 (7 - len)
    let t0 := xorByte t0 j 0x80
    D.pH { s with x0 := s.x0 ^^^ D.toBI t0 }
  else
    D.pH (xorTop s 0x80)

/-- `ABSORB_LANES`, lines 8-41 -/
def absorbLanes (s : State) (src : Ptr) (len : Nat) : CM State := do
  let s ← whileGe 8 (by decide) len 0 (fun i (s : State) => do
    let t0 ← load64 (src + 8 * i)
    D.pH { s with x0 := s.x0 ^^^ D.toWord t0 }) s
  absorbTail D s (src + 8 * (len / 8)) (len % 8)

/-- One iteration of the loop of `isap_rk`, lines 66-90, with `*y` in its array. -/
def rkStep (y : CSrc) (i : Nat) (s : State) : CM State := do
  let yb ← y.get i
  let s ← D.pB (xorTop s ((yb &&& 0x80) <<< 0))
  let s ← D.pB (xorTop s ((yb &&& 0x40) <<< 1))
  let s ← D.pB (xorTop s ((yb &&& 0x20) <<< 2))
  let s ← D.pB (xorTop s ((yb &&& 0x10) <<< 3))
  let s ← D.pB (xorTop s ((yb &&& 0x08) <<< 4))
  let s ← D.pB (xorTop s ((yb &&& 0x04) <<< 5))
  let s ← D.pB (xorTop s ((yb &&& 0x02) <<< 6))
  let s := xorTop s ((yb &&& 0x01) <<< 7)
  let b ← branch (i ≠ 15)
  if b then D.pB s else pure s

/-- The last three words of `isap_rk`, lines 94-99: the elements of `out->x` are written. -/
def rkOut (s : State) (out : Arr (BitVec 64)) (outlen : Nat) : CM (Arr (BitVec 64)) := do
  let out ← aset out 0 s.x0
  let out ← aset out 1 s.x1
  let b ← branch (outlen > 16)
  if b then aset out 2 s.x2 else pure out

/-- `isap_rk`, lines 47-99; `*(lane_t *)iv` (line 60) reads 8 bytes of the table. -/
def isapRk (k : Ptr) (iv : Arr Byte) (y : CSrc) (out : Arr (BitVec 64)) (outlen : Nat) : CM (Arr (BitVec 64)) := do
  let k0 ← load64 (k + 0)
  let k1 ← load64 (k + 8)
  let v ← areads iv 0 8
  let s ← D.pK ⟨D.toWord k0, D.toWord k1, D.toWord (le64 v), 0, 0⟩
  let s ← forN 16 0 (rkStep D y) s
  let s ← D.pK s
  rkOut s out outlen

/-- The first part of `isap_mac`, lines 112-131. -/
def macAbsorb (npub ad : Ptr) (adlen : Nat) (c : Ptr) (clen : Nat) : CM State := do
  let n0 ← load64 (npub + 0)
  let n1 ← load64 (npub + 8)
  let v ← areads (Arr.of (iv 1)) 0 8
  let s ← D.pH ⟨D.toWord n0, D.toWord n1, D.toWord (le64 v), 0, 0⟩
  let s ← absorbLanes D s ad adlen
  let s := { s with x4 := s.x4 ^^^ 1 }
  absorbLanes D s c clen

/-- `isap_mac`, lines 105-143.  `y` is the array of the bytes of the words `x[0]`, `x[1]`. -/
def isapMac (k npub ad : Ptr) (adlen : Nat) (c : Ptr) (clen : Nat) : CM (List Byte) := do
  let s ← macAbsorb D npub ad adlen c clen
  let s := { s with x0 := D.fromWord s.x0, x1 := D.fromWord s.x1 }
  let out ← isapRk D k (Arr.of (iv 2)) (.arr (Arr.of (toLe64 s.x0 ++ toLe64 s.x1))) (Arr.of (words s)) 16
  let s ← readState out
  let s ← D.pH s
  pure (toLe64 (D.fromWord s.x0) ++ toLe64 (D.fromWord s.x1))

/-- The last part of `isap_enc`, lines 174-186, with the index of `t0.b[i]`. -/
def encTail (s : State) (m : Ptr) (mlen : Nat) (c : Ptr) : CM Unit :=
  ifThen (mlen > 0) do
    let s ← D.pE s
    let t0 := D.fromWord s.x0
    forN mlen 0 (fun i (_ : Unit) => do
      let d ← load8 (m + i)
      let j ← ix8 i
      store8 (c + i) (d ^^^ byteOf t0 j)) ()

/-- `isap_enc`, lines 149-187.  No element of the local `state` is initialised (line 156). -/
def isapEnc (k npub m : Ptr) (mlen : Nat) (c : Ptr) : CM Unit := do
  let out ← isapRk D k (Arr.of (iv 3)) (.ext npub) (Arr.new 5) 24
  let n0 ← load64 (npub + 0)
  let out ← aset out 3 (D.toWord n0)
  let n1 ← load64 (npub + 8)
  let out ← aset out 4 (D.toWord n1)
  let s ← readState out
  let s ← whileGe 8 (by decide) mlen 0 (fun i (s : State) => do
    let s ← D.pE s
    let t0 := D.fromWord s.x0
    let d ← load64 (m + 8 * i)
    store64 (c + 8 * i) (d ^^^ t0)
    pure s) s
  encTail D s (m + 8 * (mlen / 8)) (mlen % 8) (c + 8 * (mlen / 8))

/-- The implementation.  `isapa128av20/opt_64/isap.c` lines 105-187. -/
def impl : Impl where
  enc := isapEnc D
  mac := isapMac D
  tagAlign := 1

/-- `crypto_hash`, lines 195-224; line 202 reads 8 bytes of `ASCON_HASH_IV`. -/
def cryptoHash (out inp : Ptr) (inlen : Nat) : CM Int := do
  let v ← areads (Arr.of hashIV) 0 8
  let s ← D.pH ⟨D.toWord (le64 v), 0, 0, 0, 0⟩
  let s ← absorbLanes D s inp inlen
  let _ ← forN 4 0 (squeezeStep D out) s
  pure 0

end Opt.Chk

namespace Opt.Stp.Chk
open Opt.Chk (ix8 words readState)
variable (D : StpPrims)

/-- `isap_mac`, `bi_32_stp/isap.c` lines 108-150 -/
def isapMac (k npub ad : Ptr) (adlen : Nat) (c : Ptr) (clen : Nat) : CM (List Byte) := do
  let s ← Opt.Chk.macAbsorb D.toPrims npub ad adlen c clen
  setg .s0 s.x0
  setg .s1 s.x1
  let s := { s with x0 := D.fromWord s.x0, x1 := D.fromWord s.x1 }
  let out ← Opt.Chk.isapRk D.toPrims k (Arr.of (iv 2)) (.arr (Arr.of (toLe64 s.x0 ++ toLe64 s.x1))) (Arr.of (words s)) 16
  let s ← readState out
  let s ← D.pH s
  pure (toLe64 (D.fromWord s.x0) ++ toLe64 (D.fromWord s.x1))

/-- One half of `pvp`, `bi_32_stp/isap.c` lines 163-169 and 174-180: reads 8 bytes of `T` at 0 and at 8. -/
def pvpHalf (T : Arr Byte) : CM State := do
  let t0 ← areads T 0 8
  let t1 ← areads T 8 8
  let s0 ← getg .s0
  let s1 ← getg .s1
  D.pPVP ⟨D.toWord (le64 t0), D.toWord (le64 t1), s0, s1, 0⟩

/-- `pvp`, `bi_32_stp/isap.c` lines 157-193, with the indices of `s->b[0][i]`, `s->b[1][i]` and of the bytes of `u0`, `u1`. -/
def pvp (T Tstar : Arr Byte) : CM Nat := do
  let u ← pvpHalf D T
  let s ← pvpHalf D Tstar
  let cnt ← forN 8 0 (fun i (cnt : Nat) => do
    let j ← ix8 i
    pure (cnt + if byteOf s.x0 j = byteOf u.x0 j then 1 else 0)) 0
  forN 8 0 (fun i (cnt : Nat) => do
    let j ← ix8 i
    pure (cnt + if byteOf s.x1 j = byteOf u.x1 j then 1 else 0)) cnt

/-- The two functions that encryption uses.  `bi_32_stp/isap.c` lines 108-237. -/
def impl : Impl where
  enc := Opt.Chk.isapEnc D.toPrims
  mac := isapMac D
  tagAlign := 1

/-- `crypto_aead_decrypt`, `bi_32_stp/crypto_aead.c` lines 30-68, with the arrays `T[16]` and `T_star[16]`. -/
def decrypt (m mlen _nsec c : Ptr) (clen : Nat) (ad : Ptr) (adlen : Nat) (npub k : Ptr) : CM Int := do
  storeLen mlen (clen + (2 ^ 64 - 16))
  let l ← loadLen mlen
  let t ← isapMac D k npub ad adlen c l
  let T ← awrites (Arr.new 16) 0 t
  let Tstar ← forN 16 0 (fun i (t : Arr Byte) => do
    let l ← loadLen mlen
    let b ← load8 (c + (l + i))
    aset t i b) (Arr.new 16)
  let eqCnt ← pvp D T Tstar
  let ok ← branch (eqCnt = 16)
  if ok then
    let l ← loadLen mlen
    ifThen (l > 0) do
      let l ← loadLen mlen
      Opt.Chk.isapEnc D.toPrims k npub c l m
    pure 0
  else
    pure (-1)

/-- The API.  `bi_32_stp/crypto_aead.c` lines 5-68. -/
def aead : Aead where
  encrypt := (impl D).aead.encrypt
  decrypt a := decrypt D a.m a.mlen a.nsec a.c a.clen a.ad a.adlen a.npub a.k

end Opt.Stp.Chk
end Model
