import Verif.Model.BoundsOpt
/-!
# The optimized ISAP-K-128a and ISAP-K-128 versions with checked accesses to their arrays

As `Model/K128.lean` and `Model/K128Arm.lean`; see `Model/BoundsOpt.lean`.  The union `S` and the array `state` are `C.Arr`s of
bytes, which are not initialised when they are declared.  In avx512 the union has 64 bytes; the 14 bytes after the lanes are read
without having been written (as part of the vector `S.S`), and have the arbitrary values of `Avx.Junk` here.  The tables of round
constants are `C.Arr`s, too.
-/

namespace Model.K128
open C

/-- `S[off+i] ^= bs[i]` for all `i`: `opt_64/isap.c` lines 61-63, 68-70, `avx512/isap.c` lines 63, 68 -/
def xorArr (S : Arr Byte) (off : Nat) (bs : List Byte) : CM (Arr Byte) :=
  loopN bs.length 0 (fun i S => do
    let x ← aget S (off + i)
    aset S (off + i) (x ^^^ bs.getD i 0)) S

namespace Opt64.Chk

/-- As `Opt64.roundsPT`, with the element `KeccakF400RoundConstants[i]` (`opt_64/KeccakP-400-64.macros`). -/
def roundsPT : (i n : Nat) → KeccakRef.Lanes × Par → CM (KeccakRef.Lanes × Par)
  | _, 0, x => pure x
  | i, n + 1, x => do
    let rc ← aget (Arr.of roundConstants) i
    roundsPT (i + 1) n (thetaRhoPiChiIotaPrepareTheta rc x.1 x.2)

/-- `rounds20X` (`opt_64/KeccakP-400-unrolling.macros` lines 1-22), `rounds16X` (24-41), `rounds12X` (43-56), `rounds8X` (58-67) -/
def roundsX (n : Nat) (A : KeccakRef.Lanes) : CM KeccakRef.Lanes := do
  let x ← roundsPT (20 - n) (n - 1) (A, prepareTheta A)
  let rc ← aget (Arr.of roundConstants) 19
  pure (thetaRhoPiChiIota rc x.1 x.2)

/-- `rounds1X`: lines 69-73 -/
def rounds1X (A : KeccakRef.Lanes) : CM KeccakRef.Lanes := do
  let rc ← aget (Arr.of roundConstants) 19
  pure (thetaRhoPiChiIotaPrepareTheta rc A (prepareTheta A)).1

/-- A permutation of the 50 bytes.  `union State`, `opt_64/isap.c` lines 18-49. -/
def onBytes (f : KeccakRef.Lanes → CM KeccakRef.Lanes) (S : Arr Byte) : CM (Arr Byte) := do
  let bs ← areads S 0 50
  let A ← f (KeccakRef.words bs)
  pure (Arr.of (KeccakRef.unwords A))

end Opt64.Chk

namespace Avx.Chk

/-- As `Avx.roundLoop`, with the element `KeccakF400RoundConstants[i]` (`avx512/KeccakP-400-64.macros` lines 5-26). -/
def roundLoop : (i n : Nat) → V → CM V
  | _, 0, A => pure A
  | i, n + 1, A => do
    let rc ← aget (Arr.of Opt64.roundConstants) i
    roundLoop (i + 1) n (thetaRhoPiChiIota rc A)

/-- `roundsNX` on the object representation of 64 bytes.  `union State`, `avx512/isap.c` lines 19-51, and
`avx512/KeccakP-400-unrolling.macros`. -/
def perm (n : Nat) (S : Arr Byte) : CM (Arr Byte) := do
  let bs ← areads S 0 64
  let A ← roundLoop (20 - n) n (words bs)
  pure (Arr.of (unwords A))

end Avx.Chk

namespace Chk

/-- What the three files do differently, with checked accesses.  `opt_64/isap.c` lines 51-54, `avx512/isap.c` lines 53-56. -/
structure Prims extends K128.Prims where
  /-- `PermuteRoundsHX`, ... -/
  cH : Arr Byte → CM (Arr Byte)
  cB : Arr Byte → CM (Arr Byte)
  cE : Arr Byte → CM (Arr Byte)
  cK : Arr Byte → CM (Arr Byte)

/-- `isapk128av20/opt_64`: `isap.c` lines 51-54 -/
def primsK128a : Prims :=
  { Opt64.primsK128a with
    cH := Opt64.Chk.onBytes (Opt64.Chk.roundsX 16)
    cB := Opt64.Chk.onBytes Opt64.Chk.rounds1X
    cE := Opt64.Chk.onBytes (Opt64.Chk.roundsX 8)
    cK := Opt64.Chk.onBytes (Opt64.Chk.roundsX 8) }

/-- `isapk128v20/opt_64`: `isap.c` lines 51-54 -/
def primsK128 : Prims :=
  { Opt64.primsK128 with
    cH := Opt64.Chk.onBytes (Opt64.Chk.roundsX 20)
    cB := Opt64.Chk.onBytes (Opt64.Chk.roundsX 12)
    cE := Opt64.Chk.onBytes (Opt64.Chk.roundsX 12)
    cK := Opt64.Chk.onBytes (Opt64.Chk.roundsX 12) }

/-- `isapk128av20/avx512`: `isap.c` lines 53-56 -/
def primsAvx (j : Avx.Junk) : Prims :=
  { Avx.prims j with
    cH := Avx.Chk.perm 16
    cB := Avx.Chk.perm 1
    cE := Avx.Chk.perm 8
    cK := Avx.Chk.perm 8 }

/-- One iteration of the loop for the last, partial block: `opt_64/isap.c` lines 77-84, with `S.l8[i]`. -/
def padByte (src : Ptr) (rem i : Nat) (S : Arr Byte) : CM (Arr Byte) := do
  let b ← branch (i < rem)
  if b then
    let d ← load8 (src + i)
    xorArr S i [d]
  else
    let b ← branch (i = rem)
    if b then xorArr S i [0x80] else pure S

/-- `ABSORB_MAC`: `opt_64/isap.c` lines 56-88, `avx512/isap.c` lines 58-86. -/
def absorbMac (D : Prims) (S : Arr Byte) (src : Ptr) (len : Nat) : CM (Arr Byte) :=
  whileRem 18 (by decide) len 0
    (fun i S => do
      let d ← D.ldBlk (src + 18 * i)
      let S ← xorArr S 0 d
      D.cH S)
    (fun i S => do
      let d ← D.ldBlk (src + 18 * i)
      let S ← xorArr S 0 d
      let S ← D.cH S
      let S ← xorArr S 0 [0x80]
      D.cH S)
    (fun i rem S => do
      let S ← forN 18 0 (padByte (src + 18 * i) rem) S
      D.cH S) S

/-- The declaration of `S` and the assignments of its 25 lanes from 16 bytes, a table of 8 bytes and zeros: `opt_64/isap.c` lines
107-132 and 183-208, `avx512/isap.c` lines 105-130 and 167-192. -/
def initS (bs : List Byte) (iv : Arr Byte) (pad : List Byte) : CM (Arr Byte) := do
  let v ← areads iv 0 8
  let S ← awrites (Arr.new 50 ++ Arr.of pad) 0 bs
  let S ← awrites S 16 v
  awrites S 24 (List.replicate 26 0)

/-- `isap_rk`: `opt_64/isap.c` lines 94-167, `avx512/isap.c` lines 92-151. -/
def isapRk (D : Prims) (k : Ptr) (n : Nat) (y : CSrc) (out : Arr Byte) (outlen : Nat) : CM (Arr Byte) := do
  let kb ← loads 2 2 8 k
  let S ← initS kb (Arr.of (D.iv n)) (D.padRk n)
  let S ← D.cK S
  let S ← forN 127 0 (fun i S => do
    let yb ← y.get (i / 8)
    let S ← xorArr S 0 [A128.yBit yb i]
    D.cB S) S
  let yb ← y.get 15
  let S ← xorArr S 0 [(yb &&& 1) <<< 7]
  let S ← D.cK S
  let b ← branch (outlen = 34)
  if b then
    let o ← areads S 0 34
    awrites out 0 o
  else
    let o ← areads S 0 16
    awrites out 0 o

/-- `isap_mac`: `opt_64/isap.c` lines 173-252, `avx512/isap.c` lines 157-215, with the array `y` of 16 bytes. -/
def isapMac (D : Prims) (k npub ad : Ptr) (adlen : Nat) (c : Ptr) (clen : Nat) : CM (List Byte) := do
  let nb ← loads 2 2 8 npub
  let S ← initS nb (Arr.of (D.iv 1)) D.padMac
  let S ← D.cH S
  let S ← absorbMac D S ad adlen
  let S ← xorArr S 49 [0x01]
  let S ← absorbMac D S c clen
  let t ← areads S 0 16
  let y ← awrites (Arr.new 16) 0 t
  let y ← isapRk D k 2 (.arr y) y 16
  let t ← areads y 0 16
  let S ← awrites S 0 t
  let S ← D.cH S
  areads S 0 16

/-- The stores of one full block.  `opt_64/isap.c` lines 307-310, 317-320, `avx512/isap.c` lines 270-271, 278-279. -/
def encBlock (D : Prims) (m c : Ptr) (S : Arr Byte) : CM Unit := do
  let d ← D.ldMsg m
  let ks ← areads S 0 18
  store 1 c (List.zipWith (· ^^^ ·) d ks)

/-- `isap_enc`: `opt_64/isap.c` lines 258-331, `avx512/isap.c` lines 221-290, with the array `state` of 50 bytes (line 266) and
`S.l8[i]` (line 325). -/
def isapEnc (D : Prims) (k npub m : Ptr) (mlen : Nat) (c : Ptr) : CM Unit := do
  let state ← isapRk D k 3 (.ext npub) (Arr.new 50) 34
  let key ← areads state 0 34
  let S ← awrites (Arr.new 50 ++ Arr.of D.padEnc) 0 key
  let nb ← loads 2 2 8 npub
  let S ← awrites S 34 nb
  let S ← D.cE S
  let _ ← whileRem 18 (by decide) mlen 0
    (fun i S => do
      encBlock D (m + 18 * i) (c + 18 * i) S
      D.cE S)
    (fun i S => do
      encBlock D (m + 18 * i) (c + 18 * i) S
      pure S)
    (fun i rem S => do
      let _ ← forN rem 0 (fun j (_ : Unit) => do
        let d ← load8 (m + 18 * i + j)
        let x ← aget S j
        store8 (c + 18 * i + j) (d ^^^ x)) ()
      pure S) S
  pure ()

/-- The implementation.  `opt_64/isap.c` lines 173-331, `avx512/isap.c` lines 157-290. -/
def impl (D : Prims) : Impl := { enc := isapEnc D, mac := isapMac D, tagAlign := D.tagAlign }

end Chk

/-! ## The versions for ARM -/

namespace Arm

namespace V7.Chk

/-- From the label `KeccakP400_Permute_RoundOdd` on (`KeccakP-400-armv7m-le-gcc.s` lines 419-427), with the elements of the table
that `r8` points to. -/
def roundOdd : (fuel i : Nat) → Lanes → Carry → CM Lanes
  | 0, _, _, _ => .ub .diverges
  | fuel + 1, i, B, q => do
    let rc ← aget (Arr.of roundConstants) i
    let p := round rc B q
    let r3 ← aget (Arr.of roundConstants) (i + 1)
    let b ← branch (r3 ≠ 0)
    if b then
      let p := round r3 p.1 p.2
      roundOdd fuel (i + 2) p.1 p.2
    else pure p.1

/-- `KeccakP400_Permute_Nrounds`: lines 376-427. -/
def permute (n : Nat) (A : Lanes) : CM Lanes := do
  let i := 20 - n
  let b ← branch (n % 2 = 0)
  if b then
    let rc ← aget (Arr.of roundConstants) i
    let p := round rc A (carryEven A)
    roundOdd 100 (i + 1) p.1 p.2
  else roundOdd 100 i A (carryOdd A)

end V7.Chk

namespace V6.Chk

/-- From the label `KeccakP400_Permute_RoundOdd` on (`KeccakP-400-armv6m-le-gcc.s` lines 433-441). -/
def roundOdd : (fuel i1 : Nat) → Lanes → CM Lanes
  | 0, _, _ => .ub .diverges
  | fuel + 1, i1, B => do
    let rc ← aget (Arr.of roundConstants) i1
    let A := round rc B
    let r1 ← aget (Arr.of roundConstants) (i1 + 1)
    let b ← branch (r1 = 0x00FF)
    if b then pure A
    else roundOdd fuel (i1 + 2) (round r1 A)

/-- `KeccakP400_Permute_Nrounds`: lines 358-387, 433-443. -/
def permute (n : Nat) (A : Lanes) : CM Lanes := do
  let i := 20 - n
  let b ← branch (n % 2 = 0)
  if b then
    let rc ← aget (Arr.of roundConstants) i
    roundOdd 100 (i + 1) (round rc A)
  else roundOdd 100 i A

end V6.Chk

namespace Chk

/-- `KeccakP400_Permute_Nrounds` on the array of 50 bytes.  `opt_32_armv7m/KeccakP-400-armv7m-le-gcc.s` lines 376-427,
`opt_32_armv6m/KeccakP-400-armv6m-le-gcc.s` lines 358-443. -/
def perm (D : Prims) (n : Nat) (S : Arr Byte) : CM (Arr Byte) := do
  let bs ← areads S 0 50
  let A ← D.permute n (KeccakRef.words bs)
  pure (Arr.of (KeccakRef.unwords A))

/-- `isap.c` lines 23-26, 57-64: `KeccakP400_Initialize` sets all bytes of the array `state` of 50 bytes. -/
def initState (D : Prims) (p : Ptr) (n : Nat) : CM (Arr Byte) := do
  let S ← awrites (Arr.new 50) 0 (List.replicate 50 0)
  let kb ← loadsDown 16 p
  let S ← xorArr S 0 kb
  let v ← areads (Arr.of (D.iv n)) 0 8
  xorArr S 16 v

/-- `isap_rk`: lines 14-43. -/
def isapRk (D : Prims) (k : Ptr) (n : Nat) (y : CSrc) (out : Arr Byte) (outlen : Nat) : CM (Arr Byte) := do
  let S ← initState D k n
  let S ← perm D D.sK S
  let S ← forN 127 0 (fun i S => do
    let yb ← y.get (i / 8)
    let S ← xorArr S 0 [((yb >>> (7 - i % 8)) &&& 1) <<< 7]
    perm D D.sB S) S
  let yb ← y.get 15
  let S ← xorArr S 0 [(yb &&& 1) <<< 7]
  let S ← perm D D.sK S
  let o ← areads S 0 outlen
  awrites out 0 o

/-- Absorbing `ad` or `c`: lines 67-89 and 95-116, with `state[i]` (lines 86, 113) and `state[rem_bytes]` (lines 88, 115). -/
def absorb (D : Prims) (S : Arr Byte) (src : Ptr) (len : Nat) : CM (Arr Byte) := do
  let S ← whileGe 18 (by decide) len 0 (fun i S => do
    let d ← loads 2 2 9 (src + 18 * i)
    let S ← xorArr S 0 d
    perm D D.sH S) S
  let S ← forN (len % 18) 0 (fun i S => do
    let d ← load8 (src + 18 * (len / 18) + i)
    xorArr S i [d]) S
  let S ← xorArr S (len % 18) [0x80]
  perm D D.sH S

/-- `isap_mac`: lines 49-128, with the arrays `y` and `ka_star` of 16 bytes (lines 119, 120). -/
def isapMac (D : Prims) (k npub ad : Ptr) (adlen : Nat) (c : Ptr) (clen : Nat) : CM (List Byte) := do
  let S ← initState D npub 1
  let S ← perm D D.sH S
  let S ← absorb D S ad (adlen % 2 ^ 32)
  let S ← xorArr S 49 [0x01]
  let S ← absorb D S c (clen % 2 ^ 32)
  let t ← areads S 0 16
  let y ← awrites (Arr.new 16) 0 t
  let ka ← isapRk D k 2 (.arr y) (Arr.new 16) 16
  let t ← areads ka 0 16
  let S ← awrites S 0 t
  let S ← perm D D.sH S
  areads S 0 16

/-- Lines 155-163: `state16[j]`. -/
def encBlock (m c : Ptr) (S : Arr Byte) : CM Unit := do
  let _ ← forN 9 0 (fun j (_ : Unit) => do
    let d ← load 2 2 (m + 2 * j)
    let s ← areads S (2 * j) 2
    store 2 (c + 2 * j) (List.zipWith (· ^^^ ·) d s)) ()
  pure ()

/-- `isap_enc`: lines 134-176, with the array `state` (line 140) and `state[i]` (line 173). -/
def isapEnc (D : Prims) (k npub m : Ptr) (mlen : Nat) (c : Ptr) : CM Unit := do
  let mlen := mlen % 2 ^ 32
  let S ← isapRk D k 3 (.ext npub) (Arr.new 50) 34
  let nb ← loadsDown 16 npub
  let S ← awrites S 34 nb
  let S ← whileGe 18 (by decide) mlen 0 (fun i S => do
    let S ← perm D D.sE S
    encBlock (m + 18 * i) (c + 18 * i) S
    pure S) S
  ifThen (mlen % 18 > 0) do
    let S ← perm D D.sE S
    let _ ← forN (mlen % 18) 0 (fun j (_ : Unit) => do
      let d ← load8 (m + 18 * (mlen / 18) + j)
      let x ← aget S j
      store8 (c + 18 * (mlen / 18) + j) (d ^^^ x)) ()
    pure ()

/-- The implementation.  `opt_32_armv7m/isap.c` lines 49-176 (same text in the other directories). -/
def impl (D : Prims) : Impl := { enc := isapEnc D, mac := isapMac D, tagAlign := 1 }

/-- `isapk128av20/opt_32_armv7m`: `isap.h` and the assembly file -/
def primsK128aV7 : Prims := ⟨V7.Chk.permute, 16, 1, 8, 8⟩
/-- `isapk128av20/opt_32_armv6m`: `isap.h` and the assembly file -/
def primsK128aV6 : Prims := ⟨V6.Chk.permute, 16, 1, 8, 8⟩
/-- `isapk128v20/opt_32_armv7m`: `isap.h` and the assembly file -/
def primsK128V7 : Prims := ⟨V7.Chk.permute, 20, 12, 12, 12⟩
/-- `isapk128v20/opt_32_armv6m`: `isap.h` and the assembly file -/
def primsK128V6 : Prims := ⟨V6.Chk.permute, 20, 12, 12, 12⟩

end Chk
end Arm
end Model.K128
