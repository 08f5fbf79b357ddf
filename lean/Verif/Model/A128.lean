import Verif.Model.AsconArm
/-!
# Models of the optimized versions of ISAP-A-128

`crypto_aead/isapa128v20/{opt_64,opt_32,opt_32_armv67m}/isap.c`.  The state of five lanes is modelled by five 64-bit words;
in opt_32 and opt_32_armv67m a lane is a struct of two 32-bit words `e`, `o`, here the low and the high half of a 64-bit word.
`unsigned long`, called `u32` in these files, has 64 bits in opt_64 (LP64) and 32 bits in opt_32_armv67m (ARM).
-/

namespace Model.A128
open C
open Opt (State)

/-- The constant tables `ISAP_IV1`, `ISAP_IV2`, `ISAP_IV3` (`opt_64/isap.c` lines 11-13), `ISAP_IV_A`, `ISAP_IV_KA`,
`ISAP_IV_KE` (`opt_32/isap.c` lines 5-7) with the macros of `isap.h` lines 5-27. -/
def iv (i : Nat) : List Byte := [BitVec.ofNat 8 i, 128, 64, 1, 12, 12, 12, 12]

/-- `((y >> cur_bit_pos) & 0x01) << 7` with `cur_bit_pos = 7 - (i % 8)` (`opt_64/isap.c` lines 173-174, `opt_32/isap.c` lines
41-42).  Computed in `int`; the result fits in eight bits. -/
def yBit (y : Byte) (i : Nat) : Byte := ((y >>> (7 - i % 8)) &&& 1) <<< 7

/-! ## opt_64 -/

namespace Opt64

/-- `ROTR`, line 19 (`0 < n < 64`) -/
def rotr (x : BitVec 64) (n : Nat) : BitVec 64 := (x >>> n) ||| (x <<< (64 - n))

/-- `U64BIG`, lines 23-27 -/
def u64big (x : BitVec 64) : BitVec 64 :=
  (rotr x 8 &&& 0xFF000000FF000000) ||| (rotr x 24 &&& 0x00FF000000FF0000) |||
  (rotr x 40 &&& 0x0000FF000000FF00) ||| (rotr x 56 &&& 0x000000FF000000FF)

/-- `ROUND`, lines 29-73, with the table `R` of lines 103-105. -/
def round (s : State) (c : BitVec 64) : State :=
  let x2 := s.x2 ^^^ c
  let x0 := s.x0 ^^^ s.x4
  let x4 := s.x4 ^^^ s.x3
  let x2 := x2 ^^^ s.x1
  let t0 := x0
  let t4 := x4
  let t3 := s.x3
  let t1 := s.x1
  let t2 := x2
  let x0 := t0 ^^^ (~~~ t1 &&& t2)
  let x2 := t2 ^^^ (~~~ t3 &&& t4)
  let x4 := t4 ^^^ (~~~ t0 &&& t1)
  let x1 := t1 ^^^ (~~~ t2 &&& t3)
  let x3 := t3 ^^^ (~~~ t4 &&& t0)
  let x1 := x1 ^^^ x0
  let t1 := x1
  let x1 := rotr x1 39
  let x3 := x3 ^^^ x2
  let t2 := x2
  let x2 := rotr x2 1
  let t4 := x4
  let t2 := t2 ^^^ x2
  let x2 := rotr x2 (6 - 1)
  let t3 := x3
  let t1 := t1 ^^^ x1
  let x3 := rotr x3 10
  let x0 := x0 ^^^ x4
  let x4 := rotr x4 7
  let t3 := t3 ^^^ x3
  let x2 := x2 ^^^ t2
  let x1 := rotr x1 (61 - 39)
  let t0 := x0
  let x2 := ~~~ x2
  let x3 := rotr x3 (17 - 10)
  let t4 := t4 ^^^ x4
  let x4 := rotr x4 (41 - 7)
  let x3 := x3 ^^^ t3
  let x1 := x1 ^^^ t1
  let x0 := rotr x0 19
  let x4 := x4 ^^^ t4
  let t0 := t0 ^^^ x0
  let x0 := rotr x0 (28 - 19)
  let x0 := x0 ^^^ t0
  ⟨x0, x1, x2, x3, x4⟩

/-- `P12`, lines 75-88 -/
def p12 (s : State) : State :=
  Opt.seqRounds round [0xf0, 0xe1, 0xd2, 0xc3, 0xb4, 0xa5, 0x96, 0x87, 0x78, 0x69, 0x5a, 0x4b] s

/-- What differs between this code and that of `isapa128av20/avx_512`, and between platforms.  `isapa128v20/opt_64/isap.c`
lines 8-16 and 75-101, `isapa128av20/avx_512/isap.c` lines 9-18 and 110-154. -/
structure Cfg where
  /-- `ISAP_IV1`, `ISAP_IV2`, `ISAP_IV3` -/
  iv : Nat → List Byte
  /-- `P12`: the permutation in `isap_mac`, and before the first and after the last bit in `isap_rk` -/
  pH : State → State
  /-- the permutation between the bits in `isap_rk` -/
  pB : State → State
  /-- the permutation in `isap_enc` -/
  pE : State → State
  /-- the size of the type `unsigned long`, which the code calls `u32` (line 8) -/
  dm : DataModel

/-- One iteration of the loop that fills `lane8`, lines 127-136.  `lane` holds the bytes filled so far; `src` points to the
partial lane. -/
def padByte (src : Ptr) (rem i : Nat) (lane : List Byte) : CM (List Byte) := do
  let b ← branch (i < rem)
  if b then
    let d ← load8 (src + i)
    pure (lane ++ [d])
  else
    let b ← branch (i = rem)
    if b then pure (lane ++ [0x80]) else pure (lane ++ [0])

/-- `ABSORB_MAC`, lines 107-142, without the `P12` that ends both branches with a `break`.  (In avx_512 this is the macro
`ABSORB_LANES`.)  `u32 rem_bytes = len` reduces the length; `idx64` and `idx8` stay below it. -/
def absorbLanes (pH : State → State) (d : DataModel) (s : State) (src : Ptr) (len : Nat) : CM State :=
  whileRem 8 (by decide) (len % d.ulong) 0
    (fun i (s : State) => do
      let d ← load64 (src + 8 * i)
      pure (pH { s with x0 := s.x0 ^^^ u64big d }))
    (fun i s => do
      let d ← load64 (src + 8 * i)
      let s := pH { s with x0 := s.x0 ^^^ u64big d }
      pure { s with x0 := s.x0 ^^^ 0x8000000000000000 })
    (fun i rem s => do
      let lane ← forN 8 0 (padByte (src + 8 * i) rem) []
      pure { s with x0 := s.x0 ^^^ u64big (le64 lane) }) s

/-- `ABSORB_MAC`, lines 107-142 -/
def absorbMac (pH : State → State) (d : DataModel) (s : State) (src : Ptr) (len : Nat) : CM State := do
  let s ← absorbLanes pH d s src len
  pure (pH s)

variable (D : Cfg)

/-- `isap_rk`, lines 148-188, for `ylen` = 16.  `out` is the array `out64`. -/
def isapRk (k : Ptr) (iv : List Byte) (y : Src) (out : State) (outlen : Nat) : CM State := do
  let k0 ← load64 (k + 0)
  let k1 ← load64 (k + 8)
  let s := D.pH ⟨u64big k0, u64big k1, u64big (le64 iv), 0, 0⟩
  let s ← forN 127 0 (fun i (s : State) => do
    let yb ← y.get (i / 8)
    pure (D.pB { s with x0 := s.x0 ^^^ ((yBit yb i).setWidth 64 <<< 56) })) s
  let yb ← y.get 15
  let s := D.pH { s with x0 := s.x0 ^^^ (((yb &&& 1) <<< 7).setWidth 64 <<< 56) }
  let out := { out with x0 := u64big s.x0, x1 := u64big s.x1 }
  let b ← branch (outlen = 24)
  if b then pure { out with x2 := u64big s.x2 } else pure out

/-- The first part of `isap_mac`, lines 209-222. -/
def macAbsorb (npub ad : Ptr) (adlen : Nat) (c : Ptr) (clen : Nat) : CM State := do
  let n0 ← load64 (npub + 0)
  let n1 ← load64 (npub + 8)
  let s := D.pH ⟨u64big n0, u64big n1, u64big (le64 (D.iv 1)), 0, 0⟩
  let s ← absorbMac D.pH D.dm s ad adlen
  let s := { s with x4 := s.x4 ^^^ 1 }
  absorbMac D.pH D.dm s c clen

/-- `isap_mac`, lines 194-242.  `state64` is both the argument `y` (its first 16 bytes) and the argument `out` of `isap_rk`,
which reads all of `y` before it writes `out`. -/
def isapMac (k npub ad : Ptr) (adlen : Nat) (c : Ptr) (clen : Nat) : CM (List Byte) := do
  let s ← macAbsorb D npub ad adlen c clen
  let t : State := ⟨u64big s.x0, u64big s.x1, u64big s.x2, u64big s.x3, u64big s.x4⟩
  let t ← isapRk D k (D.iv 2) (.loc (toLe64 t.x0 ++ toLe64 t.x1)) t 16
  let s := D.pH ⟨u64big t.x0, u64big t.x1, u64big t.x2, u64big t.x3, u64big t.x4⟩
  pure (toLe64 (u64big s.x0) ++ toLe64 (u64big s.x1))

/-- `isap_enc`, lines 248-299.  The words `state64[3]`, `state64[4]` are not used; they are 0 here.  `rem_bytes` is a `u64`, but
`idx64` and `idx8 = idx64*8` are `u32`.  (As 8 divides `d.ulong`, `idx8++` does not wrap around.) -/
def isapEnc (k npub m : Ptr) (mlen : Nat) (c : Ptr) : CM Unit := do
  let t ← isapRk D k (D.iv 3) (.ext npub) ⟨0, 0, 0, 0, 0⟩ 24
  let n0 ← load64 (npub + 0)
  let n1 ← load64 (npub + 8)
  let s := D.pE ⟨u64big t.x0, u64big t.x1, u64big t.x2, u64big n0, u64big n1⟩
  let _ ← whileRem 8 (by decide) mlen 0
    (fun i (s : State) => do
      let d ← load64 (m + 8 * (i % D.dm.ulong))
      store64 (c + 8 * (i % D.dm.ulong)) (u64big s.x0 ^^^ d)
      pure (D.pE s))
    (fun i s => do
      let d ← load64 (m + 8 * (i % D.dm.ulong))
      store64 (c + 8 * (i % D.dm.ulong)) (u64big s.x0 ^^^ d)
      pure s)
    (fun i rem s => do
      let lane := toLe64 (u64big s.x0)
      forN rem 0 (fun j (_ : Unit) => do
        let d ← load8 (m + 8 * i % D.dm.ulong + j)
        store8 (c + 8 * i % D.dm.ulong + j) (lane.getD j 0 ^^^ d)) ()
      pure s) s
  pure ()

/-- The configuration of `isapa128v20/opt_64`.  `isapa128v20/opt_64/isap.c` lines 11-13; every permutation is `P12`, lines
75-88. -/
def cfg (d : DataModel) : Cfg := ⟨A128.iv, p12, p12, p12, d⟩

/-- The implementation.  `isapa128v20/opt_64/isap.c` lines 194-299. -/
def impl : Impl where
  enc := isapEnc D
  mac := isapMac D
  tagAlign := 8

end Opt64

/-! ## opt_32 and opt_32_armv67m -/

namespace Opt32

/-- The permutation in the two forms used by `isap.c`: as a loop, and unrolled. -/
structure Prims where
  /-- `P_sH`, `P_sE`, `P_sK` -/
  pL : State → CM State
  /-- `P_sB_UROL`, `P_sH_UROL`, `P_sE_UROL` (in opt_32: `P_sB`, `P_sH`, `P_sE`) -/
  pU : State → CM State

/-- `to_bit_interleaving(&x, U64BIG(d))`; both functions have the text of `isapa128av20/bi_32/asconp.h`
(`opt_32/asconp.h` lines 22-48). -/
def toWord (d : BitVec 64) : BitVec 64 := Opt.Bi32.toBI (Opt.u64big d)

/-- `from_bit_interleaving(&tmp0, x); U64BIG(tmp0)` (`opt_32/asconp.h` lines 53-67). -/
def fromWord (x : BitVec 64) : BitVec 64 := Opt.u64big (Opt.Bi32.fromBI x)

/-- `x0.o ^= v`.  `opt_32/isap.c` lines 43, 47, 119, 158. -/
def xorO (s : State) (v : BitVec 32) : State :=
  { s with x0 := Opt.Bi32.lane (Opt.Bi32.w0 s.x0) (Opt.Bi32.w1 s.x0 ^^^ v) }

variable (D : Prims)

/-- The partial lane and its padding: `opt_32/isap.c` lines 98-114 and 137-153.  `tmp0` is given by its bytes. -/
def absorbPart (s : State) (src : Ptr) (len : Nat) : CM State := do
  let b ← branch (len > 0)
  if b then
    let tmp0 ← forN len 0 (fun i (t : List Byte) => do
      let d ← load8 (src + i)
      pure (t.set i d)) (List.replicate 8 0)
    let tmp0 := tmp0.set len 0x80
    D.pL { s with x0 := s.x0 ^^^ toWord (le64 tmp0) }
  else pure s

/-- The padding if there is no partial lane: `opt_32/isap.c` lines 116-121 and 155-160.  (`adlen` is not changed by the
treatment of the partial lane.) -/
def absorbPad (s : State) (len : Nat) : CM State := do
  let b ← branch (len = 0)
  if b then D.pL (xorO s 0x80000000) else pure s

/-- Absorb a string: `opt_32/isap.c` lines 87-121, and 126-160 for the ciphertext; `opt_32_armv67m/isap.c` lines 118-152,
157-191.  `x0.e ^= t0.e; x0.o ^= t0.o` is one exclusive or of 64-bit words. -/
def absorb (s : State) (src : Ptr) (len : Nat) : CM State := do
  let s ← whileGe 8 (by decide) len 0 (fun i (s : State) => do
    let d ← load64 (src + 8 * i)
    D.pU { s with x0 := s.x0 ^^^ toWord d }) s
  let s ← absorbPart D s (src + 8 * (len / 8)) (len % 8)
  absorbPad D s (len % 8)

/-- `isap_rk`: `opt_32/isap.c` lines 18-59, `opt_32_armv67m/isap.c` lines 21-90.  The result is the array of 32-bit words
written to `out`. -/
def isapRk (k : Ptr) (iv : List Byte) (y : Src) (outlen : Nat) : CM (List (BitVec 32)) := do
  let k0 ← load64 (k + 0)
  let k1 ← load64 (k + 8)
  let s ← D.pL ⟨toWord k0, toWord k1, toWord (le64 iv), 0, 0⟩
  let s ← forN 127 0 (fun i (s : State) => do
    let yb ← y.get (i / 8)
    D.pU (xorO s ((yBit yb i).setWidth 32 <<< 24))) s
  let yb ← y.get 15
  let s ← D.pL (xorO s (((yb &&& 1) <<< 7).setWidth 32 <<< 24))
  let out := [Opt.Bi32.w1 s.x0, Opt.Bi32.w0 s.x0, Opt.Bi32.w1 s.x1, Opt.Bi32.w0 s.x1]
  let b ← branch (outlen > 16)
  if b then pure (out ++ [Opt.Bi32.w1 s.x2, Opt.Bi32.w0 s.x2]) else pure out

/-- The first part of `isap_mac`: `opt_32/isap.c` lines 77-160, `opt_32_armv67m/isap.c` lines 108-191. -/
def macAbsorb (npub ad : Ptr) (adlen : Nat) (c : Ptr) (clen : Nat) : CM State := do
  let n0 ← load64 (npub + 0)
  let n1 ← load64 (npub + 8)
  let s ← D.pL ⟨toWord n0, toWord n1, toWord (le64 (iv 1)), 0, 0⟩
  let s ← absorb D s ad adlen
  let s := { s with x4 := Opt.Bi32.lane (Opt.Bi32.w0 s.x4 ^^^ 1) (Opt.Bi32.w1 s.x4) }
  absorb D s c clen

/-- `isap_mac`: `opt_32/isap.c` lines 65-181, `opt_32_armv67m/isap.c` lines 96-212. -/
def isapMac (k npub ad : Ptr) (adlen : Nat) (c : Ptr) (clen : Nat) : CM (List Byte) := do
  let s ← macAbsorb D npub ad adlen c clen
  let ka ← isapRk D k (iv 2) (.loc (toLe64 (fromWord s.x0) ++ toLe64 (fromWord s.x1))) 16
  let s ← D.pL { s with x0 := Opt.Bi32.lane (ka.getD 1 0) (ka.getD 0 0), x1 := Opt.Bi32.lane (ka.getD 3 0) (ka.getD 2 0) }
  pure (toLe64 (fromWord s.x0) ++ toLe64 (fromWord s.x1))

/-- The last part of `isap_enc`: `opt_32/isap.c` lines 222-235, `opt_32_armv67m/isap.c` lines 253-266. -/
def encTail (s : State) (m : Ptr) (mlen : Nat) (c : Ptr) : CM Unit :=
  ifThen (mlen > 0) do
    let s ← D.pL s
    let tmp0 := fromWord s.x0
    forN mlen 0 (fun i (_ : Unit) => do
      let d ← load8 (m + i)
      store8 (c + i) (d ^^^ Opt.byteOf tmp0 i)) ()

/-- `isap_enc`: `opt_32/isap.c` lines 187-236, `opt_32_armv67m/isap.c` lines 218-267. -/
def isapEnc (k npub m : Ptr) (mlen : Nat) (c : Ptr) : CM Unit := do
  let ke ← isapRk D k (iv 3) (.ext npub) 24
  let n0 ← load64 (npub + 0)
  let n1 ← load64 (npub + 8)
  let s : State := ⟨Opt.Bi32.lane (ke.getD 1 0) (ke.getD 0 0), Opt.Bi32.lane (ke.getD 3 0) (ke.getD 2 0),
    Opt.Bi32.lane (ke.getD 5 0) (ke.getD 4 0), toWord n0, toWord n1⟩
  let s ← whileGe 8 (by decide) mlen 0 (fun i (s : State) => do
    let s ← D.pU s
    let d ← load64 (m + 8 * i)
    store64 (c + 8 * i) (d ^^^ fromWord s.x0)
    pure s) s
  encTail D s (m + 8 * (mlen / 8)) (mlen % 8) (c + 8 * (mlen / 8))

/-- The implementation.  `opt_32/isap.c` lines 65-236, `opt_32_armv67m/isap.c` lines 96-267. -/
def impl : Impl where
  enc := isapEnc D
  mac := isapMac D
  tagAlign := 8

/-! ### The permutation in opt_32 -/

/-- Round constants `rc_o`, `opt_32/asconp.h` line 17. -/
def rcO : List (BitVec 32) := [0xc, 0xc, 0x9, 0x9, 0xc, 0xc, 0x9, 0x9, 0x6, 0x6, 0x3, 0x3]
/-- Round constants `rc_e`, `opt_32/asconp.h` line 18. -/
def rcE : List (BitVec 32) := [0xc, 0x9, 0xc, 0x9, 0x6, 0x3, 0x6, 0x3, 0xc, 0x9, 0xc, 0x9]

/-- `ROTR32`, `opt_32/asconp.h` line 71 (`0 < n < 32`) -/
def rotr32 (x : BitVec 32) (n : Nat) : BitVec 32 := (x >>> n) ||| (x <<< (32 - n))

/-- Five 32-bit words, the even or the odd halves of the lanes.  `u32_2` (`opt_32/asconp.h` lines 10-14) splits every lane. -/
structure Half where
  (x0 x1 x2 x3 x4 : BitVec 32)

/-- Round constant and non-linear layer, `opt_32/asconp.h` lines 78-113, on the even words; the statements for the odd words
are the same and independent of them. -/
def nonlinear (x0 x1 x2 x3 x4 c : BitVec 32) : Half :=
  let x2 := x2 ^^^ c
  let x0 := x0 ^^^ x4
  let x4 := x4 ^^^ x3
  let x2 := x2 ^^^ x1
  let t0 := x0
  let t4 := x4
  let t3 := x3
  let t1 := x1
  let t2 := x2
  let x0 := t0 ^^^ (~~~ t1 &&& t2)
  let x2 := t2 ^^^ (~~~ t3 &&& t4)
  let x4 := t4 ^^^ (~~~ t0 &&& t1)
  let x1 := t1 ^^^ (~~~ t2 &&& t3)
  let x3 := t3 ^^^ (~~~ t4 &&& t0)
  let x1 := x1 ^^^ x0
  let x3 := x3 ^^^ x2
  let x0 := x0 ^^^ x4
  ⟨x0, x1, x2, x3, x4⟩

/-- Linear layer, `opt_32/asconp.h` lines 114-136. -/
def linear (e o : Half) : State :=
  let t0e := e.x0 ^^^ rotr32 o.x0 4
  let t0o := o.x0 ^^^ rotr32 e.x0 5
  let t1e := e.x1 ^^^ rotr32 e.x1 11
  let t1o := o.x1 ^^^ rotr32 o.x1 11
  let t2e := e.x2 ^^^ rotr32 o.x2 2
  let t2o := o.x2 ^^^ rotr32 e.x2 3
  let t3e := e.x3 ^^^ rotr32 o.x3 3
  let t3o := o.x3 ^^^ rotr32 e.x3 4
  let t4e := e.x4 ^^^ rotr32 e.x4 17
  let t4o := o.x4 ^^^ rotr32 o.x4 17
  ⟨Opt.Bi32.lane (e.x0 ^^^ rotr32 t0o 9) (o.x0 ^^^ rotr32 t0e 10),
   Opt.Bi32.lane (e.x1 ^^^ rotr32 t1o 19) (o.x1 ^^^ rotr32 t1e 20),
   Opt.Bi32.lane (~~~ (e.x2 ^^^ t2o)) (~~~ (o.x2 ^^^ rotr32 t2e 1)),
   Opt.Bi32.lane (e.x3 ^^^ rotr32 t3e 5) (o.x3 ^^^ rotr32 t3o 5),
   Opt.Bi32.lane (e.x4 ^^^ rotr32 t4o 3) (o.x4 ^^^ rotr32 t4e 4)⟩

/-- Body of the loop of `PX`, `opt_32/asconp.h` lines 78-136, with the constants `rc_e[r]`, `rc_o[r]`. -/
def round (s : State) (ce co : BitVec 32) : State :=
  linear
    (nonlinear (Opt.Bi32.w0 s.x0) (Opt.Bi32.w0 s.x1) (Opt.Bi32.w0 s.x2) (Opt.Bi32.w0 s.x3) (Opt.Bi32.w0 s.x4) ce)
    (nonlinear (Opt.Bi32.w1 s.x0) (Opt.Bi32.w1 s.x1) (Opt.Bi32.w1 s.x2) (Opt.Bi32.w1 s.x3) (Opt.Bi32.w1 s.x4) co)

/-- `PX(rounds, ...)`, `opt_32/asconp.h` lines 75-138; also `P_LOOP`, `opt_32_armv67m/asconp.h` lines 138-148. -/
def px (round : State → BitVec 32 → BitVec 32 → State) (rounds : Nat) (s : State) : CM State :=
  forN rounds (12 - rounds) (fun r (s : State) => pure (round s (rcE.getD r 0) (rcO.getD r 0))) s

/-- opt_32: `P_sB` = `P_sE` = `P_sH` = `P_sK` = `PX(12, ...)`, `opt_32/isap.c` lines 9-12. -/
def prims : Prims := ⟨px round 12, px round 12⟩

/-! ### The permutation in opt_32_armv67m -/

/-- The first part of `ROUND`, `opt_32_armv67m/asconp.h` lines 73-106. -/
def prog1 : List (C.Arm.Ins Opt.Arm.Reg) :=
  [.eor .x0e .x0e (.reg .x4e), .eor .x0o .x0o (.reg .x4o), .eor .x4e .x4e (.reg .x3e), .eor .x4o .x4o (.reg .x3o),
   .eor .x2e .x2e (.reg .x1e), .eor .x2o .x2o (.reg .x1o), .bic .tmp0 .x0e (.reg .x4e), .bic .tmp1 .x4e (.reg .x3e),
   .bic .tmp2 .x2e (.reg .x1e), .bic .tmp3 .x1e (.reg .x0e), .eor .x2e .x2e (.reg .tmp1), .eor .x0e .x0e (.reg .tmp2),
   .eor .x4e .x4e (.reg .tmp3), .bic .tmp3 .x3e (.reg .x2e), .eor .x3e .x3e (.reg .tmp0), .bic .tmp2 .x0o (.reg .x4o),
   .bic .tmp0 .x2o (.reg .x1o), .bic .tmp1 .x4o (.reg .x3o), .eor .x1e .x1e (.reg .tmp3), .eor .x0o .x0o (.reg .tmp0),
   .eor .x2o .x2o (.reg .tmp1), .bic .tmp3 .x1o (.reg .x0o), .bic .tmp0 .x3o (.reg .x2o), .eor .x3o .x3o (.reg .tmp2),
   .eor .x3o .x3o (.reg .x2o), .eor .x4o .x4o (.reg .tmp3), .eor .x1o .x1o (.reg .tmp0), .eor .x3e .x3e (.reg .x2e),
   .eor .x1e .x1e (.reg .x0e), .eor .x1o .x1o (.reg .x0o), .eor .x0e .x0e (.reg .x4e), .eor .x0o .x0o (.reg .x4o),
   .mvn .x2e (.reg .x2e), .mvn .x2o (.reg .x2o)]

/-- The second part of `ROUND`, `opt_32_armv67m/asconp.h` lines 107-126. -/
def prog2 : List (C.Arm.Ins Opt.Arm.Reg) :=
  [.eor .tmp0 .x0e (.ror .x0o 4), .eor .tmp1 .x0o (.ror .x0e 5), .eor .tmp2 .x1e (.ror .x1e 11),
   .eor .tmp3 .x1o (.ror .x1o 11), .eor .x0e .x0e (.ror .tmp1 9), .eor .x0o .x0o (.ror .tmp0 10),
   .eor .x1e .x1e (.ror .tmp3 19), .eor .x1o .x1o (.ror .tmp2 20), .eor .tmp0 .x2e (.ror .x2o 2),
   .eor .tmp1 .x2o (.ror .x2e 3), .eor .tmp2 .x3e (.ror .x3o 3), .eor .tmp3 .x3o (.ror .x3e 4),
   .eor .x2e .x2e (.reg .tmp1), .eor .x2o .x2o (.ror .tmp0 1), .eor .x3e .x3e (.ror .tmp2 5),
   .eor .x3o .x3o (.ror .tmp3 5), .eor .tmp0 .x4e (.ror .x4e 17), .eor .tmp1 .x4o (.ror .x4o 17),
   .eor .x4e .x4e (.ror .tmp1 3), .eor .x4o .x4o (.ror .tmp0 4)]

/-- The `asm` statement of `ROUND`, `opt_32_armv67m/asconp.h` lines 72-133. -/
def asm : C.Arm.Asm Opt.Arm.Reg :=
  { inout := Opt.Arm.words, temps := [.tmp0, .tmp1, .tmp2, .tmp3], low := [], inputs := [], code := prog1 ++ prog2 }

/-- `x2.e ^= ce; x2.o ^= co; ROUND();` (`opt_32_armv67m/asconp.h` lines 144-146 and 156-158). -/
def roundArm (s : State) (ce co : BitVec 32) : State :=
  let s := { s with x2 := Opt.Bi32.lane (Opt.Bi32.w0 s.x2 ^^^ ce) (Opt.Bi32.w1 s.x2 ^^^ co) }
  Opt.Arm.store (C.Arm.exec asm.code (Opt.Arm.load s 0))

/-- `P_12`, `opt_32_armv67m/asconp.h` lines 152-192. -/
def p12Arm (s : State) : State :=
  Opt.seqRounds (fun s (c : BitVec 32 × BitVec 32) => roundArm s c.1 c.2)
    [(0xc, 0xc), (0x9, 0xc), (0xc, 0x9), (0x9, 0x9), (0x6, 0xc), (0x3, 0xc), (0x6, 0x9), (0x3, 0x9), (0xc, 0x6), (0x9, 0x6),
     (0xc, 0x3), (0x9, 0x3)] s

/-- opt_32_armv67m (`isap.c` lines 9-15) -/
def primsArm : Prims := ⟨px roundArm 12, fun s => pure (p12Arm s)⟩

end Opt32

end Model.A128
