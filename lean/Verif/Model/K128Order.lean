import Verif.Model.ByteOrder
import Verif.Model.K128
import Verif.Model.Targets
/-!
# opt_64 of ISAP-K on platforms with either byte order

`crypto_aead/isapk128av20/opt_64/isap.c`, `crypto_aead/isapk128v20/opt_64/isap.c`.  The text of the functions is that of
`Model/K128.lean`; the variable `union State S` is again given by its 50 bytes in memory, and all accesses to members of its
structure `X`, that is to 16-bit integers, depend on the byte order `o`.  Copies of whole words (`out16[0] = S.X.Aba`,
`S.l64[0] ^= *((UINT64 *)(src+idx+0))`) move or add the bytes as they are in memory.
-/

namespace Model.K128.Ord
open C
open KeccakRef (Lanes)

/-- Bytes of a 16-bit integer in memory.  `UINT16 l16[25]` in `union State`, `isap.c` lines 18-49. -/
def bytes16 : ByteOrder → BitVec 16 → List Byte
  | .little, v => [v.setWidth 8, (v >>> 8).setWidth 8]
  | .big, v => [(v >>> 8).setWidth 8, v.setWidth 8]

/-- The 25 members of `S.X`.  `isap.c` lines 22-48. -/
def words (o : ByteOrder) (S : List Byte) : Lanes :=
  match o with
  | .little => KeccakRef.words S
  | .big => Vector.ofFn fun i => S.getD (2 * i.val) 0 ++ S.getD (2 * i.val + 1) 0

/-- The bytes of the members of `S.X`.  `isap.c` lines 22-48. -/
def unwords (o : ByteOrder) (A : Lanes) : List Byte :=
  match o with
  | .little => KeccakRef.unwords A
  | .big => A.toList.flatMap fun l => bytes16 .big l

/-- What differs between the two files.  `isap.c` lines 8-10, 51-54. -/
structure Rounds where
  /-- `PermuteRoundsHX`, `PermuteRoundsBX`, `PermuteRoundsEX`, `PermuteRoundsKX`: lines 51-54 -/
  pH : Lanes → Lanes
  pB : Lanes → Lanes
  pE : Lanes → Lanes
  pK : Lanes → Lanes
  /-- `ISAP_IV1`, `ISAP_IV2`, `ISAP_IV3`: lines 8-10 -/
  iv : Nat → List Byte

/-- `isapk128av20/opt_64`: `isap.c` lines 8-10, 51-54, `isap.h` lines 5-12 -/
def k128a : Rounds :=
  ⟨Opt64.roundsX 16, Opt64.rounds1X, Opt64.roundsX 8, Opt64.roundsX 8, fun i => [BitVec.ofNat 8 i, 128, 144, 1, 16, 1, 8, 8]⟩

/-- `isapk128v20/opt_64`: `isap.c` lines 8-10, 51-54, `isap.h` lines 5-12 -/
def k128 : Rounds :=
  ⟨Opt64.roundsX 20, Opt64.roundsX 12, Opt64.roundsX 12, Opt64.roundsX 12,
    fun i => [BitVec.ofNat 8 i, 128, 144, 1, 20, 12, 12, 12]⟩

variable (o : ByteOrder)

/-- The rounds on the bytes of `S`.  `isap.c` lines 51-54 with `union State`, lines 18-49. -/
def on (f : Lanes → Lanes) (S : List Byte) : List Byte := unwords o (f (words o S))

/-- Exclusive or of the value `v` into the member `i` of `S.X`.  For example `S.X.Aba ^= 0x80` in `isap.c` lines 56-88. -/
def xorLane (S : List Byte) (i : Nat) (v : BitVec 16) : List Byte := xorMem S (2 * i) (bytes16 o v)

/-- `S.X.Ago = ISAP_IV1[0] | (ISAP_IV1[1] << 8); ...`: lines 192-195; these four are given by value. -/
def ivBytes (v : List Byte) : List Byte :=
  match o with
  | .little => v
  | .big => [v.getD 1 0, v.getD 0 0, v.getD 3 0, v.getD 2 0, v.getD 5 0, v.getD 4 0, v.getD 7 0, v.getD 6 0]

/-- `ABSORB_MAC`, lines 61-63, 68-70.  The last access is `S.l16[8] ^= *((UINT64 *)(src+idx+16))`: the value of the 64-bit integer
is reduced to 16 bits.  These are its first two bytes on a little-endian platform, and its last two on a big-endian platform. -/
def ldBlk (p : Ptr) : CM (List Byte) := do
  let a ← load 8 8 p
  let b ← load 8 8 (p + 8)
  let d ← load 8 8 (p + 16)
  pure (a ++ b ++ match o with | .little => d.take 2 | .big => d.drop 6)

variable (R : Rounds)

/-- `ABSORB_MAC`: lines 56-88 -/
def absorbMac (S : List Byte) (src : Ptr) (len : Nat) : CM (List Byte) :=
  whileRem 18 (by decide) len 0
    (fun i S => do
      let d ← ldBlk o (src + 18 * i)
      pure (on o R.pH (xorMem S 0 d)))
    (fun i S => do
      let d ← ldBlk o (src + 18 * i)
      let S := on o R.pH (xorMem S 0 d)
      pure (on o R.pH (xorLane o S 0 0x80)))
    (fun i rem S => do
      let S ← forN 18 0 (padByte (src + 18 * i) rem) S
      pure (on o R.pH S)) S

/-- `isap_rk`: lines 94-167; `cur_bit` is a value, the members of `S.X` are set from 16-bit words of `k` and `iv`. -/
def isapRk (k : Ptr) (n : Nat) (y : Src) (outlen : Nat) : CM (List Byte) := do
  let kb ← loads 2 2 8 k
  let S := on o R.pK (kb ++ R.iv n ++ List.replicate 26 0)
  let S ← forN 127 0 (fun i S => do
    let yb ← y.get (i / 8)
    pure (on o R.pB (xorLane o S 0 ((A128.yBit yb i).setWidth 16)))) S
  let yb ← y.get 15
  let S := on o R.pK (xorLane o S 0 (((yb &&& 1) <<< 7 : Byte).setWidth 16))
  let b ← branch (outlen = 34)
  if b then pure (S.take 34) else pure (S.take 16)

/-- `isap_mac`: lines 173-252; `S.X.Asu ^= 0x0100`. -/
def isapMac (k npub ad : Ptr) (adlen : Nat) (c : Ptr) (clen : Nat) : CM (List Byte) := do
  let nb ← loads 2 2 8 npub
  let S := on o R.pH (nb ++ ivBytes o (R.iv 1) ++ List.replicate 26 0)
  let S ← absorbMac o R S ad adlen
  let S := xorLane o S 24 0x0100
  let S ← absorbMac o R S c clen
  let y := S.take 16
  let y ← isapRk o R k 2 (.loc y) 16
  let S := on o R.pH (y ++ S.drop 16)
  pure (S.take 16)

/-- One full block: lines 307-310, 317-320; the accesses are word by word at the same offsets in both arrays. -/
def encBlock (m c : Ptr) (S : List Byte) : CM Unit := do
  let d ← Opt64.ldMsg m
  store 1 c (List.zipWith (· ^^^ ·) d (S.take 18))

/-- `isap_enc`: lines 258-331 -/
def isapEnc (k npub m : Ptr) (mlen : Nat) (c : Ptr) : CM Unit := do
  let key ← isapRk o R k 3 (.ext npub) 34
  let nb ← loads 2 2 8 npub
  let S := on o R.pE (key ++ nb)
  let _ ← whileRem 18 (by decide) mlen 0
    (fun i S => do
      encBlock (m + 18 * i) (c + 18 * i) S
      pure (on o R.pE S))
    (fun i S => do
      encBlock (m + 18 * i) (c + 18 * i) S
      pure S)
    (fun i rem S => do
      let _ ← forN rem 0 (fun j (_ : Unit) => do
        let d ← load8 (m + 18 * i + j)
        store8 (c + 18 * i + j) (d ^^^ S.getD j 0)) ()
      pure S) S
  pure ()

/-- The implementation.  `isap.c` lines 173-331. -/
def impl : Impl := { enc := isapEnc o R, mac := isapMac o R, tagAlign := 2 }

/-! ## On little-endian platforms these are the functions of `Model/K128.lean` -/

theorem xorMem_snoc_zero (S : List Byte) (off : Nat) (x : Byte) : xorMem S off [x, 0] = xorMem S off [x] := by
  show (S.modify off (· ^^^ x)).modify (off + 1) (· ^^^ 0) = S.modify off (· ^^^ x)
  refine List.ext_getElem (by simp) fun i h1 h2 => ?_
  simp [List.getElem_modify]

theorem xorMem_zero_cons (S : List Byte) (off : Nat) (x : Byte) : xorMem S off [0, x] = xorMem S (off + 1) [x] := by
  show (S.modify off (· ^^^ 0)).modify (off + 1) (· ^^^ x) = S.modify (off + 1) (· ^^^ x)
  refine List.ext_getElem (by simp) fun i h1 h2 => ?_
  simp [List.getElem_modify]

theorem xorLane_little (S : List Byte) (x : Byte) : xorLane .little S 0 (x.setWidth 16) = xorMem S 0 [x] := by
  have h1 : (x.setWidth 16).setWidth 8 = x := by
    apply BitVec.eq_of_toNat_eq; simp
  have h2 : ((x.setWidth 16) >>> 8).setWidth 8 = (0 : Byte) := by
    apply BitVec.eq_of_toNat_eq
    simp [BitVec.toNat_setWidth, BitVec.toNat_ushiftRight, Nat.shiftRight_eq_div_pow]; omega
  show xorMem S 0 [(x.setWidth 16).setWidth 8, ((x.setWidth 16) >>> 8).setWidth 8] = _
  rw [h1, h2, xorMem_snoc_zero]

theorem xorLane_little_80 (S : List Byte) : xorLane .little S 0 0x80 = xorMem S 0 [0x80] := xorMem_snoc_zero S 0 0x80

theorem xorLane_little_asu (S : List Byte) : xorLane .little S 24 0x0100 = xorMem S 49 [0x01] := xorMem_zero_cons S 48 0x01

/-- The primitives of `Model/K128.lean` for the rounds.  No counterpart in `/repo`: it connects the two models of `isap.c`. -/
def Rounds.prims : Prims where
  pH := on .little R.pH
  pB := on .little R.pB
  pE := on .little R.pE
  pK := on .little R.pK
  iv := R.iv
  padRk _ := []
  padMac := []
  padEnc := []
  ldBlk := Opt64.ldBlk
  ldMsg := Opt64.ldMsg
  tagAlign := 2

theorem on_little (f : Lanes → Lanes) : on .little f = fun S => KeccakRef.unwords (f (KeccakRef.words S)) := rfl

theorem prims_k128a : k128a.prims = Opt64.primsK128a := by
  unfold Rounds.prims k128a Opt64.primsK128a
  simp only [on_little]

theorem prims_k128 : k128.prims = Opt64.primsK128 := by
  unfold Rounds.prims k128 Opt64.primsK128
  simp only [on_little]

theorem absorbMac_little : absorbMac .little R = K128.absorbMac R.prims := by
  funext S src len
  unfold absorbMac K128.absorbMac
  simp only [xorLane_little_80]
  rfl

theorem isapRk_little : isapRk .little R = K128.isapRk R.prims := by
  funext k n y outlen
  unfold isapRk K128.isapRk
  simp only [xorLane_little, Rounds.prims, List.append_nil]

theorem impl_little : impl .little R = K128.impl R.prims := by
  have h1 : isapMac .little R = K128.isapMac R.prims := by
    funext k npub ad adlen c clen
    unfold isapMac K128.isapMac
    simp only [xorLane_little_asu, absorbMac_little, isapRk_little, Rounds.prims, List.append_nil, ivBytes]
  have h2 : isapEnc .little R = K128.isapEnc R.prims := by
    funext k npub m mlen c
    unfold isapEnc K128.isapEnc
    rw [isapRk_little]
    simp only [Rounds.prims, List.append_nil]
    rfl
  unfold impl K128.impl
  rw [h1, h2]
  rfl

end Model.K128.Ord

namespace Model
open C

/-- The two versions: `isapk128av20/opt_64`, `isapk128v20/opt_64`.  The files `isap.c` of these directories. -/
inductive OptK where
  | k128a
  | k128
deriving DecidableEq

namespace OptK

/-- The constants and the numbers of rounds.  `isap.c` lines 8-10, 51-54. -/
def rounds : OptK → K128.Ord.Rounds
  | k128a => K128.Ord.k128a
  | k128 => K128.Ord.k128

/-- The version among those that are modelled for little-endian platforms.  No counterpart in `/repo`: it connects the two
models. -/
def target : OptK → Target
  | k128a => .k128aOpt64
  | k128 => .k128Opt64

/-- The API on a platform with the given byte order; `crypto_aead.c` is the common one. -/
def aead (v : OptK) (o : ByteOrder) : Aead := (K128.Ord.impl o v.rounds).aeadIn o

theorem aead_little (v : OptK) : v.aead .little = v.target.aead := by
  cases v
  · show (K128.Ord.impl .little K128.Ord.k128a).aeadIn .little = (K128.impl K128.Opt64.primsK128a).aead
    rw [K128.Ord.impl_little, K128.Ord.prims_k128a]; rfl
  · show (K128.Ord.impl .little K128.Ord.k128).aeadIn .little = (K128.impl K128.Opt64.primsK128).aead
    rw [K128.Ord.impl_little, K128.Ord.prims_k128]; rfl

end OptK
end Model
