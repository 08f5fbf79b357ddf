import Verif.Model.ByteOrder
import Verif.Model.A128
/-!
# More implementations on platforms with either byte order

The text of the functions is that of `Model/A128.lean` and of the section on bi_8 and bi_32 of `Model/AsconOpt.lean`, with all
accesses to integers as bytes or 32-bit halves made to depend on the byte order `o`.  For `o = .little` they are the functions of
those files, as is shown beside them.
-/

namespace Model
open C

/-! ## isapa128v20/opt_64 -/

namespace A128.Opt64.Ord
open Opt (State)

variable (o : ByteOrder)

/-- `ABSORB_MAC`, lines 107-142, without the `P12` that ends both branches with a `break`.  `lane8` are the bytes of `lane64` in
memory; `0x8000000000000000` is a value. -/
def absorbLanes (pH : State → State) (d : DataModel) (s : State) (src : Ptr) (len : Nat) : CM State :=
  whileRem 8 (by decide) (len % d.ulong) 0
    (fun i (s : State) => do
      let d ← load64In o (src + 8 * i)
      pure (pH { s with x0 := s.x0 ^^^ u64big d }))
    (fun i s => do
      let d ← load64In o (src + 8 * i)
      let s := pH { s with x0 := s.x0 ^^^ u64big d }
      pure { s with x0 := s.x0 ^^^ 0x8000000000000000 })
    (fun i rem s => do
      let lane ← forN 8 0 (padByte (src + 8 * i) rem) []
      pure { s with x0 := s.x0 ^^^ u64big (word o lane) }) s

/-- `ABSORB_MAC`, lines 107-142 -/
def absorbMac (pH : State → State) (d : DataModel) (s : State) (src : Ptr) (len : Nat) : CM State := do
  let s ← absorbLanes o pH d s src len
  pure (pH s)

variable (D : Cfg)

/-- `isap_rk`, lines 148-188 -/
def isapRk (k : Ptr) (iv : List Byte) (y : Src) (out : State) (outlen : Nat) : CM State := do
  let k0 ← load64In o (k + 0)
  let k1 ← load64In o (k + 8)
  let s := D.pH ⟨u64big k0, u64big k1, u64big (word o iv), 0, 0⟩
  let s ← forN 127 0 (fun i (s : State) => do
    let yb ← y.get (i / 8)
    pure (D.pB { s with x0 := s.x0 ^^^ ((yBit yb i).setWidth 64 <<< 56) })) s
  let yb ← y.get 15
  let s := D.pH { s with x0 := s.x0 ^^^ (((yb &&& 1) <<< 7).setWidth 64 <<< 56) }
  let out := { out with x0 := u64big s.x0, x1 := u64big s.x1 }
  let b ← branch (outlen = 24)
  if b then pure { out with x2 := u64big s.x2 } else pure out

/-- The first part of `isap_mac`, lines 209-222. -/
def macAbsorb (npub ad : Ptr) (adlen : Nat) (c : Ptr) (clen : Nat) : CM State := do
  let n0 ← load64In o (npub + 0)
  let n1 ← load64In o (npub + 8)
  let s := D.pH ⟨u64big n0, u64big n1, u64big (word o (D.iv 1)), 0, 0⟩
  let s ← absorbMac o D.pH D.dm s ad adlen
  let s := { s with x4 := s.x4 ^^^ 1 }
  absorbMac o D.pH D.dm s c clen

/-- `isap_mac`, lines 194-242 -/
def isapMac (k npub ad : Ptr) (adlen : Nat) (c : Ptr) (clen : Nat) : CM (List Byte) := do
  let s ← macAbsorb o D npub ad adlen c clen
  let t : State := ⟨u64big s.x0, u64big s.x1, u64big s.x2, u64big s.x3, u64big s.x4⟩
  let t ← isapRk o D k (D.iv 2) (.loc (bytes o t.x0 ++ bytes o t.x1)) t 16
  let s := D.pH ⟨u64big t.x0, u64big t.x1, u64big t.x2, u64big t.x3, u64big t.x4⟩
  pure (bytes o (u64big s.x0) ++ bytes o (u64big s.x1))

/-- `isap_enc`, lines 248-299 -/
def isapEnc (k npub m : Ptr) (mlen : Nat) (c : Ptr) : CM Unit := do
  let t ← isapRk o D k (D.iv 3) (.ext npub) ⟨0, 0, 0, 0, 0⟩ 24
  let n0 ← load64In o (npub + 0)
  let n1 ← load64In o (npub + 8)
  let s := D.pE ⟨u64big t.x0, u64big t.x1, u64big t.x2, u64big n0, u64big n1⟩
  let _ ← whileRem 8 (by decide) mlen 0
    (fun i (s : State) => do
      let d ← load64In o (m + 8 * (i % D.dm.ulong))
      store64In o (c + 8 * (i % D.dm.ulong)) (u64big s.x0 ^^^ d)
      pure (D.pE s))
    (fun i s => do
      let d ← load64In o (m + 8 * (i % D.dm.ulong))
      store64In o (c + 8 * (i % D.dm.ulong)) (u64big s.x0 ^^^ d)
      pure s)
    (fun i rem s => do
      let lane := bytes o (u64big s.x0)
      forN rem 0 (fun j (_ : Unit) => do
        let d ← load8 (m + 8 * i % D.dm.ulong + j)
        store8 (c + 8 * i % D.dm.ulong + j) (lane.getD j 0 ^^^ d)) ()
      pure s) s
  pure ()

/-- The implementation.  `isapa128v20/opt_64/isap.c` lines 194-299. -/
def impl : Impl where
  enc := isapEnc o D
  mac := isapMac o D
  tagAlign := 8

theorem impl_little : impl .little D = Opt64.impl D := rfl

end A128.Opt64.Ord

/-! ## isapa128v20/opt_32, isapa128v20/opt_32_armv67m

The structure `u32_2` names its members, and `to_bit_interleaving` and `from_bit_interleaving` take halves of integers by shifts: the
functions `toWord`, `fromWord` and the permutation do not depend on the byte order. -/

namespace A128.Opt32.Ord
open Opt (State)

variable (o : ByteOrder) (D : Prims)

/-- The partial lane and its padding: `opt_32/isap.c` lines 98-114 and 137-153.  `tmp0` is given by its bytes in memory. -/
def absorbPart (s : State) (src : Ptr) (len : Nat) : CM State := do
  let b ← branch (len > 0)
  if b then
    let tmp0 ← forN len 0 (fun i (t : List Byte) => do
      let d ← load8 (src + i)
      pure (t.set i d)) (List.replicate 8 0)
    let tmp0 := tmp0.set len 0x80
    D.pL { s with x0 := s.x0 ^^^ toWord (word o tmp0) }
  else pure s

/-- Absorb a string: `opt_32/isap.c` lines 87-121, and 126-160 for the ciphertext. -/
def absorb (s : State) (src : Ptr) (len : Nat) : CM State := do
  let s ← whileGe 8 (by decide) len 0 (fun i (s : State) => do
    let d ← load64In o (src + 8 * i)
    D.pU { s with x0 := s.x0 ^^^ toWord d }) s
  let s ← absorbPart o D s (src + 8 * (len / 8)) (len % 8)
  absorbPad D s (len % 8)

/-- `isap_rk`: `opt_32/isap.c` lines 18-59 -/
def isapRk (k : Ptr) (iv : List Byte) (y : Src) (outlen : Nat) : CM (List (BitVec 32)) := do
  let k0 ← load64In o (k + 0)
  let k1 ← load64In o (k + 8)
  let s ← D.pL ⟨toWord k0, toWord k1, toWord (word o iv), 0, 0⟩
  let s ← forN 127 0 (fun i (s : State) => do
    let yb ← y.get (i / 8)
    D.pU (xorO s ((yBit yb i).setWidth 32 <<< 24))) s
  let yb ← y.get 15
  let s ← D.pL (xorO s (((yb &&& 1) <<< 7).setWidth 32 <<< 24))
  let out := [Opt.Bi32.w1 s.x0, Opt.Bi32.w0 s.x0, Opt.Bi32.w1 s.x1, Opt.Bi32.w0 s.x1]
  let b ← branch (outlen > 16)
  if b then pure (out ++ [Opt.Bi32.w1 s.x2, Opt.Bi32.w0 s.x2]) else pure out

/-- The first part of `isap_mac`: `opt_32/isap.c` lines 77-160. -/
def macAbsorb (npub ad : Ptr) (adlen : Nat) (c : Ptr) (clen : Nat) : CM State := do
  let n0 ← load64In o (npub + 0)
  let n1 ← load64In o (npub + 8)
  let s ← D.pL ⟨toWord n0, toWord n1, toWord (word o (iv 1)), 0, 0⟩
  let s ← absorb o D s ad adlen
  let s := { s with x4 := Opt.Bi32.lane (Opt.Bi32.w0 s.x4 ^^^ 1) (Opt.Bi32.w1 s.x4) }
  absorb o D s c clen

/-- `isap_mac`: `opt_32/isap.c` lines 65-181 -/
def isapMac (k npub ad : Ptr) (adlen : Nat) (c : Ptr) (clen : Nat) : CM (List Byte) := do
  let s ← macAbsorb o D npub ad adlen c clen
  let ka ← isapRk o D k (iv 2) (.loc (bytes o (fromWord s.x0) ++ bytes o (fromWord s.x1))) 16
  let s ← D.pL { s with x0 := Opt.Bi32.lane (ka.getD 1 0) (ka.getD 0 0), x1 := Opt.Bi32.lane (ka.getD 3 0) (ka.getD 2 0) }
  pure (bytes o (fromWord s.x0) ++ bytes o (fromWord s.x1))

/-- The last part of `isap_enc`: `opt_32/isap.c` lines 222-235 -/
def encTail (s : State) (m : Ptr) (mlen : Nat) (c : Ptr) : CM Unit :=
  ifThen (mlen > 0) do
    let s ← D.pL s
    let tmp0 := fromWord s.x0
    forN mlen 0 (fun i (_ : Unit) => do
      let d ← load8 (m + i)
      store8 (c + i) (d ^^^ Opt.Ord.byteOf o tmp0 i)) ()

/-- `isap_enc`: `opt_32/isap.c` lines 187-236.  The array `ke` is written and read as 32-bit words. -/
def isapEnc (k npub m : Ptr) (mlen : Nat) (c : Ptr) : CM Unit := do
  let ke ← isapRk o D k (iv 3) (.ext npub) 24
  let n0 ← load64In o (npub + 0)
  let n1 ← load64In o (npub + 8)
  let s : State := ⟨Opt.Bi32.lane (ke.getD 1 0) (ke.getD 0 0), Opt.Bi32.lane (ke.getD 3 0) (ke.getD 2 0),
    Opt.Bi32.lane (ke.getD 5 0) (ke.getD 4 0), toWord n0, toWord n1⟩
  let s ← whileGe 8 (by decide) mlen 0 (fun i (s : State) => do
    let s ← D.pU s
    let d ← load64In o (m + 8 * i)
    store64In o (c + 8 * i) (d ^^^ fromWord s.x0)
    pure s) s
  encTail o D s (m + 8 * (mlen / 8)) (mlen % 8) (c + 8 * (mlen / 8))

/-- The implementation.  `isapa128v20/opt_32/isap.c` lines 65-236, `opt_32_armv67m/isap.c` lines 96-267. -/
def impl : Impl where
  enc := isapEnc o D
  mac := isapMac o D
  tagAlign := 8

theorem impl_little : impl .little D = Opt32.impl D := rfl

end A128.Opt32.Ord

/-! ## isapa128av20/bi_32 and bi_32_compact -/

namespace Opt.Ord.Bi32
variable (o : ByteOrder)

/-- `x.w[0]`: the union `lane_t`, `isapa128av20/bi_32/asconp.h` lines 7-12 -/
def w0 (x : BitVec 64) : BitVec 32 :=
  match o with
  | .little => Opt.Bi32.w0 x
  | .big => Opt.Bi32.w1 x

/-- `x.w[1]`: the union `lane_t`, `isapa128av20/bi_32/asconp.h` lines 7-12 -/
def w1 (x : BitVec 64) : BitVec 32 :=
  match o with
  | .little => Opt.Bi32.w1 x
  | .big => Opt.Bi32.w0 x

/-- The lane with the given `w[0]` and `w[1]`.  The union `lane_t`, `isapa128av20/bi_32/asconp.h` lines 7-12. -/
def lane (a b : BitVec 32) : BitVec 64 :=
  match o with
  | .little => b ++ a
  | .big => a ++ b

/-- `to_bit_interleaving`, `bi_32/asconp.h` lines 53-70 -/
def toBI (x : BitVec 64) : BitVec 64 :=
  let lo := Opt.Bi32.shuffle (w0 o x)
  let hi := Opt.Bi32.shuffle (w1 o x)
  lane o ((lo &&& 0x0000FFFF#32) ||| (hi <<< 16)) ((lo >>> 16) ||| (hi &&& 0xFFFF0000#32))

/-- `from_bit_interleaving`, `bi_32/asconp.h` lines 75-91.  The result is put together by shifts, not through `w`. -/
def fromBI (x : BitVec 64) : BitVec 64 :=
  let lo := Opt.Bi32.unshuffle ((w0 o x &&& 0x0000FFFF#32) ||| (w1 o x <<< 16))
  let hi := Opt.Bi32.unshuffle ((w0 o x >>> 16) ||| (w1 o x &&& 0xFFFF0000#32))
  (hi.setWidth 64 <<< 32) ||| lo.setWidth 64

/-- `ROR`, `bi_32/asconp.h` lines 102-108 -/
def ror (x : BitVec 64) (n : Nat) : BitVec 64 :=
  lane o (if n % 2 ≠ 0 then Opt.Bi32.ror32 (w1 o x) ((n - 1) / 2) else Opt.Bi32.ror32 (w0 o x) (n / 2))
    (if n % 2 ≠ 0 then Opt.Bi32.ror32 (w0 o x) ((n + 1) / 2) else Opt.Bi32.ror32 (w1 o x) (n / 2))

/-- `ROUND`, `bi_32/asconp.h` lines 112-141 -/
def round (s : State) (c : BitVec 64) : State := Opt64.roundWith (ror o) s c

/-- `U64TOWORD` (line 31) -/
def toWord (x : BitVec 64) : BitVec 64 := toBI o (u64big x)
/-- `WORDTOU64` (line 32) -/
def fromWord (x : BitVec 64) : BitVec 64 := u64big (fromBI o x)

/-- bi_32: `bi_32/asconp.h` lines 24-37 -/
def prims : Prims := unrolled (round o) Opt.Bi32.k12 Opt.Bi32.k6 Opt.Bi32.k1 (toWord o) (fromWord o) (toBI o)
/-- bi_32_compact: `bi_32_compact/asconp.h` lines 24-37 -/
def primsCompact : Prims :=
  viaProunds (switchRounds (round o) Opt.Bi32.k12 Opt.Bi32.k6 Opt.Bi32.k1) (toWord o) (fromWord o) (toBI o)

theorem prims_little : prims .little = Opt.Bi32.prims := rfl
theorem primsCompact_little : primsCompact .little = Opt.Bi32.primsCompact := rfl

end Opt.Ord.Bi32

/-! ## isapa128av20/bi_8 -/

namespace Opt.Ord.Bi8
variable (o : ByteOrder)

/-- `ROR`, `bi_8/asconp.h` lines 56-68 -/
def ror (x : BitVec 64) (n : Nat) : BitVec 64 :=
  (List.range 8).foldl (fun b j => Opt8.setByte o b j (Opt.Bi8.ror8 (byteOf o x ((n + j) &&& 7)) ((n + j) >>> 3))) 0

/-- `ROUND`, `bi_8/asconp.h` lines 86-116 -/
def round (s : State) (c : BitVec 64) : State :=
  let s2 := s.x2 ^^^ c
  let s0 := s.x0 ^^^ s.x4
  let s4 := s.x4 ^^^ s.x3
  let s2 := s2 ^^^ s.x1
  let s1 := s.x1
  let s3 := s.x3
  let xtemp := s0 &&& ~~~ s4
  let s0 := s0 ^^^ (s2 &&& ~~~ s1)
  let s2 := s2 ^^^ (s4 &&& ~~~ s3)
  let s4 := s4 ^^^ (s1 &&& ~~~ s0)
  let s1 := s1 ^^^ (s3 &&& ~~~ s2)
  let s3 := s3 ^^^ xtemp
  let s1 := s1 ^^^ s0
  let s3 := s3 ^^^ s2
  let s0 := s0 ^^^ s4
  let xtemp := s0 ^^^ ror o s0 (28 - 19)
  let s0 := s0 ^^^ ror o xtemp 19
  let xtemp := s1 ^^^ ror o s1 (61 - 39)
  let s1 := s1 ^^^ ror o xtemp 39
  let xtemp := s2 ^^^ ror o s2 (6 - 1)
  let s2 := s2 ^^^ ror o xtemp 1
  let xtemp := s3 ^^^ ror o s3 (17 - 10)
  let s3 := s3 ^^^ ror o xtemp 10
  let xtemp := s4 ^^^ ror o s4 (41 - 7)
  let s4 := s4 ^^^ ror o xtemp 7
  let s2 := ~~~ s2
  ⟨s0, s1, s2, s3, s4⟩

/-- bi_8; `interleave8` (lines 73-82) works on the value. -/
def prims : Prims := viaProunds (switchRounds (round o) Opt.Bi8.k12 Opt.Bi8.k6 Opt.Bi8.k1)
  (fun x => Opt.Bi8.interleave8 (u64big x)) (fun x => u64big (Opt.Bi8.interleave8 x)) Opt.Bi8.interleave8

theorem prims_little : prims .little = Opt.Bi8.prims := rfl

end Opt.Ord.Bi8

/-! ## The implementations -/

/-- Implementations that treat padding as a value in one place and as bytes in another, or interleave the bits of lanes.
The `isap.c` files they stand for are cited at the functions above. -/
inductive MixedA where
  | bi32
  | bi32Compact
  | bi8
  /-- isapa128v20/opt_64, with the size of `unsigned long` -/
  | a128Opt64 (d : DataModel)
  | a128Opt32
  | a128Opt32Arm

/-- `isap.c` -/
def MixedA.impl (o : ByteOrder) : MixedA → Impl
  | .bi32 => Opt.Ord.impl o (Opt.Ord.Bi32.prims o)
  | .bi32Compact => Opt.Ord.impl o (Opt.Ord.Bi32.primsCompact o)
  | .bi8 => Opt.Ord.impl o (Opt.Ord.Bi8.prims o)
  | .a128Opt64 d => A128.Opt64.Ord.impl o (A128.Opt64.cfg d)
  | .a128Opt32 => A128.Opt32.Ord.impl o A128.Opt32.prims
  | .a128Opt32Arm => A128.Opt32.Ord.impl o A128.Opt32.primsArm

/-- The API on platforms with byte order `o`.  `crypto_aead.c` lines 5-61. -/
def MixedA.aead (v : MixedA) (o : ByteOrder) : Aead := (v.impl o).aeadIn o

/-- `crypto_hash` on platforms with byte order `o`.  `isapa128av20/opt_64/isap.c` lines 195-224. -/
def MixedA.hash (o : ByteOrder) : MixedA → Option (Ptr → Ptr → Nat → CM Int)
  | .bi32 => some (Opt.Ord.cryptoHash o (Opt.Ord.Bi32.prims o))
  | .bi32Compact => some (Opt.Ord.cryptoHash o (Opt.Ord.Bi32.primsCompact o))
  | .bi8 => some (Opt.Ord.cryptoHash o (Opt.Ord.Bi8.prims o))
  | _ => none

/-- The same implementation as a target, which means a little-endian platform.  No counterpart in `/repo`: it connects the
two models. -/
def MixedA.target : MixedA → Target
  | .bi32 => .a128aBi32
  | .bi32Compact => .a128aBi32Compact
  | .bi8 => .a128aBi8
  | .a128Opt64 d => .a128Opt64 d
  | .a128Opt32 => .a128Opt32
  | .a128Opt32Arm => .a128Opt32Armv67m

end Model
