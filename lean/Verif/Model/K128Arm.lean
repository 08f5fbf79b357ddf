import Verif.Model.K128
/-!
# The ISAP-K implementations for ARM

`isapk128av20/opt_32_armv6m`, `isapk128av20/opt_32_armv7m`, `isapk128v20/opt_32_armv6m` and `isapk128v20/opt_32_armv7m`.  The file
`isap.c` is the same in the four directories; `isap.h` differs in the numbers of rounds; the assembler files
`KeccakP-400-armv6m-le-gcc.s` and `KeccakP-400-armv7m-le-gcc.s` are the same for both parameter sets.

Registers are variables.  The assembler code accesses the 25 lanes of the state (50 bytes, little-endian) and of a second copy of
it on the stack; both are arrays of lanes here.  Saving and restoring registers is not modelled.
-/

namespace Model.K128.Arm
open C

/-- The 25 lanes.  The state the assembly files work on, `KeccakP-400-armv7m-le-gcc.s` lines 376-427. -/
abbrev Lanes := KeccakRef.Lanes

/-! ## Instructions -/

/-- `ldrh`: one lane.  For example `KeccakP-400-armv7m-le-gcc.s` lines 56-61. -/
def ldrh (A : Lanes) (i : Nat) (h : i < 25 := by decide) : BitVec 32 := A[i].setWidth 32

/-- `ldr`: two lanes.  For example `KeccakP-400-armv7m-le-gcc.s` lines 68-73. -/
def ldr (A : Lanes) (i : Nat) (h : i + 1 < 25 := by decide) : BitVec 32 := A[i + 1] ++ A[i]

/-- `strh`: the low half of a register.  `KeccakP-400-armv7m-le-gcc.s` lines 99, 107, 205, `KeccakP-400-armv6m-le-gcc.s`
lines 88, 97. -/
def strh (r : BitVec 32) : BitVec 16 := r.setWidth 16

/-- `uxth`: `KeccakP-400-armv6m-le-gcc.s` lines 72, 80, `KeccakP-400-armv7m-le-gcc.s` lines 77, 93 -/
def uxth (r : BitVec 32) : BitVec 32 := (r.setWidth 16).setWidth 32

/-- `sxth`: `KeccakP-400-armv6m-le-gcc.s` line 77 -/
def sxth (r : BitVec 32) : BitVec 32 := (r.setWidth 16).signExtend 32

/-- `bfi d, n, #16, #16`: `KeccakP-400-armv7m-le-gcc.s` line 67 -/
def bfi16 (d n : BitVec 32) : BitVec 32 := n.setWidth 16 ++ d.setWidth 16

/-- `rev16`: swap the bytes of each half.  `KeccakP-400-armv7m-le-gcc.s` line 86. -/
def rev16 (r : BitVec 32) : BitVec 32 :=
  r.extractLsb' 16 8 ++ r.extractLsb' 24 8 ++ r.extractLsb' 0 8 ++ r.extractLsb' 8 8

/-! ## `KeccakP-400-armv7m-le-gcc.s` -/

namespace V7

/-- Lines 55-64. -/
def xor5 (A : Lanes) (b g k m : Nat) (rs : BitVec 32) (hb : b < 25 := by decide) (hg : g < 25 := by decide)
    (hk : k < 25 := by decide) (hm : m < 25 := by decide) : BitVec 32 :=
  let result := ldrh A b hb
  let r6 := ldrh A g hg
  let result := result ^^^ rs
  let rs := ldrh A k hk
  let result := result ^^^ r6
  let r6 := ldrh A m hm
  let result := result ^^^ rs
  result ^^^ r6

/-- Lines 66-78: the parities of two columns, of which the lanes of the last row are in `rsL` and `rsH`.  Returns `resultL` and
`resultH`. -/
def xor5D (A : Lanes) (b g k m : Nat) (rsL rsH : BitVec 32) (hb : b + 1 < 25 := by decide) (hg : g + 1 < 25 := by decide)
    (hk : k + 1 < 25 := by decide) (hm : m + 1 < 25 := by decide) : BitVec 32 × BitVec 32 :=
  let rsL := bfi16 rsL rsH
  let resultL := ldr A b hb
  let r6 := ldr A g hg
  let resultL := resultL ^^^ rsL
  let rsL := ldr A k hk
  let resultL := resultL ^^^ r6
  let r6 := ldr A m hm
  let resultL := resultL ^^^ rsL
  let resultL := resultL ^^^ r6
  let resultH := resultL >>> 16
  let resultL := uxth resultL
  (resultL, resultH)

/-- Lines 80-88. -/
def xorrol (b yy : BitVec 32) (rr : Nat) : BitVec 32 :=
  let b := b ^^^ yy
  if rr ≠ 8 then
    let b := b <<< rr
    b ||| b >>> 16
  else rev16 b

/-- Lines 90-94. -/
def rolxor (a b : BitVec 32) : BitVec 32 :=
  let d := a ^^^ b <<< 1
  let d := d ^^^ b >>> 15
  uxth d

/-- Lines 96-100: the value of `temp`, the low half of which is stored. -/
def xandnot (aa bb cc : BitVec 32) : BitVec 32 := (cc &&& ~~~ bb) ^^^ aa

/-- Lines 102-108: the value of `cc`, the low half of which is stored. -/
def xandnotRC (aa bb cc : BitVec 32) (rc : BitVec 16) : BitVec 32 :=
  let r6 := rc.setWidth 32
  let cc := cc &&& ~~~ bb
  let cc := cc ^^^ r6
  cc ^^^ aa

/-- The registers that carry lanes and a parity from one round to the next.  `KeccakP-400-armv7m-le-gcc.s` lines 110-207. -/
structure Carry where
  r5 : BitVec 32
  r7 : BitVec 32
  r9 : BitVec 32
  r10 : BitVec 32
  r11 : BitVec 32
  r12 : BitVec 32

/-- `r9`, `r10`, `r11`, `r12`, `lr` after the first part of a round: lines 112-118. -/
def prepTheta (A : Lanes) (q : Carry) : BitVec 32 × BitVec 32 × BitVec 32 × BitVec 32 × BitVec 32 :=
  let p := xor5D A 0 5 10 15 q.r9 q.r10
  let r1 := p.1
  let r2 := p.2
  let p := xor5D A 2 7 12 17 q.r11 q.r12
  let r3 := p.1
  let r4 := p.2
  let r9 := rolxor q.r7 r2
  let r10 := rolxor r1 r3
  let r11 := rolxor r2 r4
  let r12 := rolxor r3 q.r7
  let lr := rolxor r4 r1
  (r9, r10, r11, r12, lr)

/-- The second part of a round: lines 121-206. -/
def chiRows (rc : BitVec 16) (A : Lanes) (q : Carry) (r9 r10 r11 r12 lr : BitVec 32) : Lanes × Carry :=
  let r1 := ldrh A 0
  let r2 := ldrh A 6
  let r3 := ldrh A 12
  let r4 := ldrh A 18
  let r5 := q.r5
  let r1 := r1 ^^^ r9
  let r2 := xorrol r2 r10 12
  let r3 := xorrol r3 r11 11
  let r4 := xorrol r4 r12 5
  let r5 := xorrol r5 lr 14
  let be := xandnot r2 r3 r4
  let bi := xandnot r3 r4 r5
  let bo := xandnot r4 r5 r1
  let bu := xandnot r5 r1 r2
  let r7 := bu
  let ba := xandnotRC r1 r2 r3 rc
  let r1 := ldrh A 3
  let r2 := ldrh A 9
  let r3 := ldrh A 10
  let r4 := ldrh A 16
  let r5 := ldrh A 22
  let r1 := xorrol r1 r12 12
  let r2 := xorrol r2 lr 4
  let r3 := xorrol r3 r9 3
  let r4 := xorrol r4 r10 13
  let r5 := xorrol r5 r11 13
  let ga := xandnot r1 r2 r3
  let ge := xandnot r2 r3 r4
  let gi := xandnot r3 r4 r5
  let go := xandnot r4 r5 r1
  let gu := xandnot r5 r1 r2
  let r7 := r7 ^^^ gu
  let r1 := ldrh A 1
  let r2 := ldrh A 7
  let r3 := ldrh A 13
  let r4 := ldrh A 19
  let r5 := ldrh A 20
  let r1 := xorrol r1 r10 1
  let r2 := xorrol r2 r11 6
  let r3 := xorrol r3 r12 9
  let r4 := xorrol r4 lr 8
  let r5 := xorrol r5 r9 2
  let ka := xandnot r1 r2 r3
  let ke := xandnot r2 r3 r4
  let ki := xandnot r3 r4 r5
  let ko := xandnot r4 r5 r1
  let ku := xandnot r5 r1 r2
  let r7 := r7 ^^^ ku
  let r1 := ldrh A 4
  let r2 := ldrh A 5
  let r3 := ldrh A 11
  let r4 := ldrh A 17
  let r5 := ldrh A 23
  let r1 := xorrol r1 lr 11
  let r2 := xorrol r2 r9 4
  let r3 := xorrol r3 r10 10
  let r4 := xorrol r4 r11 15
  let r5 := xorrol r5 r12 8
  let ma := xandnot r1 r2 r3
  let me := xandnot r2 r3 r4
  let mi := xandnot r3 r4 r5
  let mo := xandnot r4 r5 r1
  let mu := xandnot r5 r1 r2
  let r7 := r7 ^^^ mu
  let r1 := ldrh A 2
  let r2 := ldrh A 8
  let r3 := ldrh A 14
  let r4 := ldrh A 15
  let r5 := ldrh A 21
  let r1 := xorrol r1 r11 14
  let r2 := xorrol r2 r12 7
  let r3 := xorrol r3 lr 7
  let r4 := xorrol r4 r9 9
  let r5 := xorrol r5 r10 2
  let sa := xandnot r1 r2 r3
  let se := xandnot r2 r3 r4
  let si := xandnot r3 r4 r5
  let so := xandnot r4 r5 r1
  let r1 := r2 &&& ~~~ r1
  let r5 := r5 ^^^ r1
  let r7 := r7 ^^^ r5
  let r7 := uxth r7
  let su := r5
  let r5 := uxth r5
  (#v[strh ba, strh be, strh bi, strh bo, strh bu, strh ga, strh ge, strh gi, strh go, strh gu, strh ka, strh ke, strh ki, strh ko, strh ku, strh ma, strh me, strh mi, strh mo, strh mu, strh sa, strh se, strh si, strh so, strh su],
    { r5 := r5, r7 := r7, r9 := sa, r10 := se, r11 := si, r12 := so })

/-- `KeccakRound`, from `sIn` to `sOut`: lines 110-207.  `rc` is the constant at the address in `r8`. -/
def round (rc : BitVec 16) (A : Lanes) (q : Carry) : Lanes × Carry :=
  let d := prepTheta A q
  chiRows rc A q d.1 d.2.1 d.2.2.1 d.2.2.2.1 d.2.2.2.2

/-- `KeccakP400_Permute_RoundConstants20` and the terminator: lines 429-451. -/
def roundConstants : List (BitVec 16) :=
  [0x0001, 0x8082, 0x808a, 0x8000, 0x808b, 0x0001, 0x8081, 0x8009, 0x008a, 0x0088, 0x8009, 0x000a, 0x808b, 0x008b, 0x8089, 0x8003,
   0x8002, 0x0080, 0x800a, 0x000a, 0]

/-- From the label `KeccakP400_Permute_RoundOdd` on: lines 419-427.  `i` is the index of the constant `r8` points to, `B` the copy
on the stack.  The loop is cut off after `fuel` iterations. -/
def roundOdd : (fuel i : Nat) → Lanes → Carry → CM Lanes
  | 0, _, _, _ => .ub .diverges
  | fuel + 1, i, B, q => do
    let p := round (roundConstants.getD i 0) B q
    let r3 := roundConstants.getD (i + 1) 0
    let b ← branch (r3 ≠ 0)
    if b then
      let p := round r3 p.1 p.2
      roundOdd fuel (i + 2) p.1 p.2
    else pure p.1

/-- The registers at the label `KeccakP400_PermuteIntern`: lines 411-418. -/
def carryEven (A : Lanes) : Carry :=
  let lr := ldrh A 24
  { r9 := ldrh A 20, r10 := ldrh A 21, r11 := ldrh A 22, r12 := ldrh A 23, r5 := lr, r7 := xor5 A 4 9 14 19 lr }

/-- The registers set up for an odd number of rounds, together with copying the state to the stack: lines 381-396. -/
def carryOdd (A : Lanes) : Carry :=
  let r11 := ldr A 20
  let r12 := ldr A 22
  let lr := ldrh A 24
  { r9 := uxth r11, r10 := uxth (r11.rotateRight 16), r11 := uxth r12, r12 := r12 >>> 16, r5 := lr, r7 := xor5 A 4 9 14 19 lr }

/-- `KeccakP400_Permute_Nrounds`: lines 376-427.  The number of rounds is a constant of the caller, and not secret; testing its
parity is a branch. -/
def permute (n : Nat) (A : Lanes) : CM Lanes := do
  let i := 20 - n
  let b ← branch (n % 2 = 0)
  if b then
    let p := round (roundConstants.getD i 0) A (carryEven A)
    roundOdd 100 (i + 1) p.1 p.2
  else roundOdd 100 i A (carryOdd A)

end V7

/-! ## `KeccakP-400-armv6m-le-gcc.s` -/

namespace V6

/-- Lines 53-63. -/
def xor5 (A : Lanes) (b g k m s : Nat) (hb : b < 25 := by decide) (hg : g < 25 := by decide) (hk : k < 25 := by decide)
    (hm : m < 25 := by decide) (hs : s < 25 := by decide) : BitVec 32 :=
  let result := ldrh A b hb
  let result := result ^^^ ldrh A g hg
  let result := result ^^^ ldrh A k hk
  let result := result ^^^ ldrh A m hm
  result ^^^ ldrh A s hs

/-- Lines 65-74 for `rr` ≠ 0; `lsrs b, b, #16-rr`. -/
def xorrol (b yy : BitVec 32) (rr : Nat) : BitVec 32 :=
  let b := b ^^^ yy
  let r7 := b <<< rr
  let b := b >>> (16 - rr)
  let b := b ||| r7
  uxth b

/-- Lines 76-82; `rot` is 31. -/
def rolxor (a b : BitVec 32) : BitVec 32 :=
  let r7 := sxth b
  let r7 := r7.rotateRight 31
  let r7 := r7 ^^^ a
  uxth r7

/-- Lines 84-89: the value of `temp`. -/
def xandnot (aa bb cc : BitVec 32) : BitVec 32 := (cc &&& ~~~ bb) ^^^ aa

/-- Lines 91-98: the value of `cc`. -/
def xandnotRC (aa bb cc : BitVec 32) (rc : BitVec 16) : BitVec 32 :=
  let cc := cc &&& ~~~ bb
  let cc := cc ^^^ aa
  cc ^^^ rc.setWidth 32

/-- `r9`, `r10`, `r11`, `r12`, `lr` after the first part of a round: lines 103-114. -/
def prepTheta (A : Lanes) : BitVec 32 × BitVec 32 × BitVec 32 × BitVec 32 × BitVec 32 :=
  let r1 := xor5 A 0 5 10 15 20
  let r2 := xor5 A 1 6 11 16 21
  let r3 := xor5 A 2 7 12 17 22
  let r4 := xor5 A 3 8 13 18 23
  let r5 := xor5 A 4 9 14 19 24
  let r9 := rolxor r5 r2
  let r10 := rolxor r1 r3
  let r11 := rolxor r2 r4
  let r12 := rolxor r3 r5
  let lr := rolxor r4 r1
  (r9, r10, r11, r12, lr)

/-- The second part of a round: lines 117-196. -/
def chiRows (rc : BitVec 16) (A : Lanes) (r9 r10 r11 r12 lr : BitVec 32) : Lanes :=
  let r1 := ldrh A 3
  let r2 := ldrh A 9
  let r3 := ldrh A 10
  let r4 := ldrh A 16
  let r5 := ldrh A 22
  let r1 := xorrol r1 r12 12
  let r2 := xorrol r2 lr 4
  let r3 := xorrol r3 r9 3
  let r4 := xorrol r4 r10 13
  let r5 := xorrol r5 r11 13
  let ga := xandnot r1 r2 r3
  let ge := xandnot r2 r3 r4
  let gi := xandnot r3 r4 r5
  let go := xandnot r4 r5 r1
  let gu := xandnot r5 r1 r2
  let r1 := ldrh A 1
  let r2 := ldrh A 7
  let r3 := ldrh A 13
  let r4 := ldrh A 19
  let r5 := ldrh A 20
  let r1 := xorrol r1 r10 1
  let r2 := xorrol r2 r11 6
  let r3 := xorrol r3 r12 9
  let r4 := xorrol r4 lr 8
  let r5 := xorrol r5 r9 2
  let ka := xandnot r1 r2 r3
  let ke := xandnot r2 r3 r4
  let ki := xandnot r3 r4 r5
  let ko := xandnot r4 r5 r1
  let ku := xandnot r5 r1 r2
  let r1 := ldrh A 4
  let r2 := ldrh A 5
  let r3 := ldrh A 11
  let r4 := ldrh A 17
  let r5 := ldrh A 23
  let r1 := xorrol r1 lr 11
  let r2 := xorrol r2 r9 4
  let r3 := xorrol r3 r10 10
  let r4 := xorrol r4 r11 15
  let r5 := xorrol r5 r12 8
  let ma := xandnot r1 r2 r3
  let me := xandnot r2 r3 r4
  let mi := xandnot r3 r4 r5
  let mo := xandnot r4 r5 r1
  let mu := xandnot r5 r1 r2
  let r1 := ldrh A 2
  let r2 := ldrh A 8
  let r3 := ldrh A 14
  let r4 := ldrh A 15
  let r5 := ldrh A 21
  let r1 := xorrol r1 r11 14
  let r2 := xorrol r2 r12 7
  let r3 := xorrol r3 lr 7
  let r4 := xorrol r4 r9 9
  let r5 := xorrol r5 r10 2
  let sa := xandnot r1 r2 r3
  let se := xandnot r2 r3 r4
  let si := xandnot r3 r4 r5
  let so := xandnot r4 r5 r1
  let su := xandnot r5 r1 r2
  let r1 := ldrh A 0
  let r2 := ldrh A 6
  let r3 := ldrh A 12
  let r4 := ldrh A 18
  let r5 := ldrh A 24
  let r1 := r1 ^^^ r9
  let r2 := xorrol r2 r10 12
  let r3 := xorrol r3 r11 11
  let r4 := xorrol r4 r12 5
  let r5 := xorrol r5 lr 14
  let be := xandnot r2 r3 r4
  let bi := xandnot r3 r4 r5
  let bo := xandnot r4 r5 r1
  let bu := xandnot r5 r1 r2
  let ba := xandnotRC r1 r2 r3 rc
  #v[strh ba, strh be, strh bi, strh bo, strh bu, strh ga, strh ge, strh gi, strh go, strh gu, strh ka, strh ke, strh ki, strh ko, strh ku, strh ma, strh me, strh mi, strh mo, strh mu, strh sa, strh se, strh si, strh so, strh su]

/-- `KeccakRound`, from `sIn` to `sOut`: lines 100-197.  `rc` is the constant at the address `r8 + rco`. -/
def round (rc : BitVec 16) (A : Lanes) : Lanes :=
  let d := prepTheta A
  chiRows rc A d.1 d.2.1 d.2.2.1 d.2.2.2.1 d.2.2.2.2

/-- `KeccakP400_Permute_RoundConstants20` and the terminator: lines 409-431. -/
def roundConstants : List (BitVec 16) :=
  [0x0001, 0x8082, 0x808a, 0x8000, 0x808b, 0x0001, 0x8081, 0x8009, 0x008a, 0x0088, 0x8009, 0x000a, 0x808b, 0x008b, 0x8089, 0x8003,
   0x8002, 0x0080, 0x800a, 0x000a, 0x00FF]

/-- From the label `KeccakP400_Permute_RoundOdd` on: lines 433-441.  `i + 1` is the index of the constant for the first round, `B`
the copy on the stack: `r8` points to constant `i`, which is that before the table for 20 rounds and one more; so `i` is an integer
and the argument `i1` is `i + 1`.  The loop is cut off after `fuel` iterations. -/
def roundOdd : (fuel i1 : Nat) → Lanes → CM Lanes
  | 0, _, _ => .ub .diverges
  | fuel + 1, i1, B => do
    let A := round (roundConstants.getD i1 0) B
    let r1 := roundConstants.getD (i1 + 1) 0
    let b ← branch (r1 = 0x00FF)
    if b then pure A
    else roundOdd fuel (i1 + 2) (round r1 A)

/-- `KeccakP400_Permute_Nrounds`: lines 358-387, 433-443. -/
def permute (n : Nat) (A : Lanes) : CM Lanes := do
  let i := 20 - n
  let b ← branch (n % 2 = 0)
  if b then roundOdd 100 (i + 1) (round (roundConstants.getD i 0) A)
  else roundOdd 100 i A

end V6

/-! ## `isap.c` -/

/-- What the four directories do differently.  `isap.h` and the assembly file of each directory; `isap.c` has the same text. -/
structure Prims where
  /-- `KeccakP400_Permute_Nrounds` -/
  permute : Nat → Lanes → CM Lanes
  /-- `ISAP_sH`, `ISAP_sB`, `ISAP_sE`, `ISAP_sK` -/
  sH : Nat
  sB : Nat
  sE : Nat
  sK : Nat

/-- `KeccakP400_Permute_Nrounds` on the bytes of the state.  Called in `isap.c` lines 27, 35, 39. -/
def Prims.perm (D : Prims) (n : Nat) (S : List Byte) : CM (List Byte) := do
  let A ← D.permute n (KeccakRef.words S)
  pure (KeccakRef.unwords A)

/-- `ISAP_IV1`, `ISAP_IV2`, `ISAP_IV3`: `isap.c` lines 6-8. -/
def Prims.iv (D : Prims) (i : Nat) : List Byte :=
  [BitVec.ofNat 8 i, 128, 144, 1, BitVec.ofNat 8 D.sH, BitVec.ofNat 8 D.sB, BitVec.ofNat 8 D.sE, BitVec.ofNat 8 D.sK]

/-- The loads of `KeccakP400_AddBytes` and `KeccakP400_OverwriteBytes` (lines 261-295 in the version for ARMv7-M, 250-284 for
ARMv6-M), which go from the last byte to the first. -/
def loadsDown (n : Nat) (p : Ptr) : CM (List Byte) :=
  forN n 0 (fun j bs => do
    let d ← load8 (p + (n - 1 - j))
    pure (d :: bs)) []

/-- `KeccakP400_Initialize` followed by two calls of `KeccakP400_AddBytes`: `isap.c` lines 24-26, 62-64. -/
def initState (D : Prims) (p : Ptr) (n : Nat) : CM (List Byte) := do
  let S := List.replicate 50 0
  let kb ← loadsDown 16 p
  let S := xorMem S 0 kb
  pure (xorMem S 16 (D.iv n))

/-- `isap_rk` with `inlen` = 16 and the `n`-th IV: lines 14-43.  Returns the bytes stored in `out`. -/
def isapRk (D : Prims) (k : Ptr) (n : Nat) (y : Src) (outlen : Nat) : CM (List Byte) := do
  let S ← initState D k n
  let S ← D.perm D.sK S
  let S ← forN 127 0 (fun i S => do
    let yb ← y.get (i / 8)
    D.perm D.sB (xorMem S 0 [((yb >>> (7 - i % 8)) &&& 1) <<< 7])) S
  let yb ← y.get 15
  let S ← D.perm D.sK (xorMem S 0 [(yb &&& 1) <<< 7])
  pure (S.take outlen)

/-- Absorbing `ad` or `c`: lines 67-89 and 95-116.  `len` is an `unsigned long`. -/
def absorb (D : Prims) (S : List Byte) (src : Ptr) (len : Nat) : CM (List Byte) := do
  let S ← whileGe 18 (by decide) len 0 (fun i S => do
    let d ← loads 2 2 9 (src + 18 * i)
    D.perm D.sH (xorMem S 0 d)) S
  let S ← forN (len % 18) 0 (fun i S => do
    let d ← load8 (src + 18 * (len / 18) + i)
    pure (xorMem S i [d])) S
  D.perm D.sH (xorMem S (len % 18) [0x80])

/-- `isap_mac`: lines 49-128.  `adlen` and `clen` are converted to `unsigned long`, which has 32 bits.  The tag is stored by
`KeccakP400_ExtractBytes` from the last byte to the first; the model of `crypto_aead.c` stores it from the first to the last. -/
def isapMac (D : Prims) (k npub ad : Ptr) (adlen : Nat) (c : Ptr) (clen : Nat) : CM (List Byte) := do
  let S ← initState D npub 1
  let S ← D.perm D.sH S
  let S ← absorb D S ad (adlen % 2 ^ 32)
  let S := xorMem S 49 [0x01]
  let S ← absorb D S c (clen % 2 ^ 32)
  let y := S.take 16
  let ka ← isapRk D k 2 (.loc y) 16
  let S ← D.perm D.sH (ka ++ S.drop 16)
  pure (S.take 16)

/-- `c16[..] = m16[..] ^ state16[j]` for one block: lines 155-163. -/
def encBlock (m c : Ptr) (S : List Byte) : CM Unit := do
  let _ ← forN 9 0 (fun j (_ : Unit) => do
    let d ← load 2 2 (m + 2 * j)
    store 2 (c + 2 * j) (List.zipWith (· ^^^ ·) d ((S.drop (2 * j)).take 2))) ()
  pure ()

/-- `isap_enc`: lines 134-176.  `mlen` is converted to `unsigned long`. -/
def isapEnc (D : Prims) (k npub m : Ptr) (mlen : Nat) (c : Ptr) : CM Unit := do
  let mlen := mlen % 2 ^ 32
  let key ← isapRk D k 3 (.ext npub) 34
  let nb ← loadsDown 16 npub
  let S := key ++ nb
  let S ← whileGe 18 (by decide) mlen 0 (fun i S => do
    let S ← D.perm D.sE S
    encBlock (m + 18 * i) (c + 18 * i) S
    pure S) S
  ifThen (mlen % 18 > 0) do
    let S ← D.perm D.sE S
    let _ ← forN (mlen % 18) 0 (fun j (_ : Unit) => do
      let d ← load8 (m + 18 * (mlen / 18) + j)
      store8 (c + 18 * (mlen / 18) + j) (d ^^^ S.getD j 0)) ()
    pure ()

/-- The implementation with the given primitives.  `isap.c` lines 49-176. -/
def impl (D : Prims) : Impl := { enc := isapEnc D, mac := isapMac D, tagAlign := 1 }

/-- `isapk128av20/opt_32_armv7m`: `isap.h` and the assembly file -/
def primsK128aV7 : Prims := ⟨V7.permute, 16, 1, 8, 8⟩
/-- `isapk128av20/opt_32_armv6m`: `isap.h` and the assembly file -/
def primsK128aV6 : Prims := ⟨V6.permute, 16, 1, 8, 8⟩
/-- `isapk128v20/opt_32_armv7m`: `isap.h` and the assembly file -/
def primsK128V7 : Prims := ⟨V7.permute, 20, 12, 12, 12⟩
/-- `isapk128v20/opt_32_armv6m`: `isap.h` and the assembly file -/
def primsK128V6 : Prims := ⟨V6.permute, 20, 12, 12, 12⟩

end Model.K128.Arm
