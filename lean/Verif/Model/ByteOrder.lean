import Verif.C.ByteOrder
import Verif.Model.Hash
/-!
# `crypto_aead.c` and the optimized ISAP-A-128a mode on platforms with either byte order

The text of the functions is that of `Model/Api.lean` and `Model/OptMode.lean`, with all accesses to integers as bytes or 32-bit
halves made to depend on the byte order `o`.  At the end it is shown that for `o = .little` they are the functions of those files.
-/

namespace Model
open C

/-- `crypto_aead_encrypt`, as `Model.encrypt`, `crypto_aead.c` lines 5-27 -/
def encryptIn (o : ByteOrder) (I : Impl) (a : EncArgs) : CM Int := do
  storeLenIn o a.clen (a.mlen + 16)
  ifThen (a.mlen > 0) (I.enc a.k a.npub a.m a.mlen a.c)
  let tag ← I.mac a.k a.npub a.ad a.adlen a.c a.mlen
  storeTag I.tagAlign (a.c + a.mlen) tag
  pure 0

/-- `crypto_aead_decrypt`, as `Model.decrypt`, `crypto_aead.c` lines 29-61 -/
def decryptIn (o : ByteOrder) (I : Impl) (a : DecArgs) : CM Int := do
  storeLenIn o a.mlen (a.clen + (2 ^ 64 - 16))
  let l ← loadLenIn o a.mlen
  let tag ← I.mac a.k a.npub a.ad a.adlen a.c l
  let eqCnt ← forN 16 0 (fun i (cnt : Nat) => do
    let l ← loadLenIn o a.mlen
    let b ← load8 (a.c + (l + i))
    pure (cnt + if tag.getD i 0 = b then 1 else 0)) 0
  let ok ← branch (eqCnt = 16)
  if ok then
    let l ← loadLenIn o a.mlen
    ifThen (l > 0) do
      let l ← loadLenIn o a.mlen
      I.enc a.k a.npub a.c l a.m
    pure 0
  else
    pure (-1)

/-- The API.  `crypto_aead.c` lines 5-61. -/
def Impl.aeadIn (o : ByteOrder) (I : Impl) : Aead where
  encrypt := encryptIn o I
  decrypt := decryptIn o I

namespace Opt.Ord
variable (o : ByteOrder)

/-- `x.b[j] ^= v` on a `lane_t`: `isapa128av20/opt_64/asconp.h` lines 7-12 -/
def xorByte (x : BitVec 64) (j : Nat) (v : Byte) : BitVec 64 := x ^^^ (v.setWidth 64 <<< shiftOf o j)

/-- `x.b[j]` on a `lane_t`: `isapa128av20/opt_64/asconp.h` lines 7-12 -/
def byteOf (x : BitVec 64) (j : Nat) : Byte := (x >>> shiftOf o j).setWidth 8

/-- `s->b[0][7] ^= v`: `isapa128av20/opt_64/isap.c` lines 38, 69-83 -/
def xorTop (s : State) (v : Byte) : State := { s with x0 := xorByte o s.x0 7 v }

/-- `s->w[4][0] ^= 1`, where `w[4]` are the halves of `x[4]`: `opt_64/isap.c` line 128 -/
def xorOne (s : State) : State :=
  match o with
  | .little => { s with x4 := s.x4 ^^^ 1 }
  | .big => { s with x4 := s.x4 ^^^ 1 <<< 32 }

variable (D : Prims)

/-- `ABSORB_LANES`, `opt_64/isap.c` lines 20-40 -/
def absorbTail (s : State) (src : Ptr) (len : Nat) : CM State := do
  let b ← branch (len > 0)
  if b then
    let t0 ← forN len 0 (fun i (t0 : BitVec 64) => do
      let d ← load8 (src + i)
      pure (xorByte o t0 (7 - i) d)) 0
    let t0 := xorByte o t0 (7 - len) 0x80
    D.pH { s with x0 := s.x0 ^^^ D.toBI t0 }
  else
    D.pH (xorTop o s 0x80)

/-- `ABSORB_LANES`, `opt_64/isap.c` lines 8-41 -/
def absorbLanes (s : State) (src : Ptr) (len : Nat) : CM State := do
  let s ← whileGe 8 (by decide) len 0 (fun i (s : State) => do
    let t0 ← load64In o (src + 8 * i)
    D.pH { s with x0 := s.x0 ^^^ D.toWord t0 }) s
  absorbTail o D s (src + 8 * (len / 8)) (len % 8)

/-- One iteration of the loop of `isap_rk`, `opt_64/isap.c` lines 66-90 -/
def rkStep (y : Src) (i : Nat) (s : State) : CM State := do
  let yb ← y.get i
  let s ← D.pB (xorTop o s ((yb &&& 0x80) <<< 0))
  let s ← D.pB (xorTop o s ((yb &&& 0x40) <<< 1))
  let s ← D.pB (xorTop o s ((yb &&& 0x20) <<< 2))
  let s ← D.pB (xorTop o s ((yb &&& 0x10) <<< 3))
  let s ← D.pB (xorTop o s ((yb &&& 0x08) <<< 4))
  let s ← D.pB (xorTop o s ((yb &&& 0x04) <<< 5))
  let s ← D.pB (xorTop o s ((yb &&& 0x02) <<< 6))
  let s := xorTop o s ((yb &&& 0x01) <<< 7)
  let b ← branch (i ≠ 15)
  if b then D.pB s else pure s

/-- `isap_rk`, `opt_64/isap.c` lines 47-99 -/
def isapRk (k : Ptr) (iv : List Byte) (y : Src) (out : State) (outlen : Nat) : CM State := do
  let k0 ← load64In o (k + 0)
  let k1 ← load64In o (k + 8)
  let s ← D.pK ⟨D.toWord k0, D.toWord k1, D.toWord (word o iv), 0, 0⟩
  let s ← forN 16 0 (rkStep o D y) s
  let s ← D.pK s
  rkOut s out outlen

/-- `isap_mac`, `opt_64/isap.c` lines 112-131 -/
def macAbsorb (npub ad : Ptr) (adlen : Nat) (c : Ptr) (clen : Nat) : CM State := do
  let n0 ← load64In o (npub + 0)
  let n1 ← load64In o (npub + 8)
  let s ← D.pH ⟨D.toWord n0, D.toWord n1, D.toWord (word o (iv 1)), 0, 0⟩
  let s ← absorbLanes o D s ad adlen
  let s := xorOne o s
  absorbLanes o D s c clen

/-- `isap_mac`, `opt_64/isap.c` lines 105-143 -/
def isapMac (k npub ad : Ptr) (adlen : Nat) (c : Ptr) (clen : Nat) : CM (List Byte) := do
  let s ← macAbsorb o D npub ad adlen c clen
  let s := { s with x0 := D.fromWord s.x0, x1 := D.fromWord s.x1 }
  let s ← isapRk o D k (iv 2) (.loc (bytes o s.x0 ++ bytes o s.x1)) s 16
  let s ← D.pH s
  pure (bytes o (D.fromWord s.x0) ++ bytes o (D.fromWord s.x1))

/-- `isap_enc`, `opt_64/isap.c` lines 174-186 -/
def encTail (s : State) (m : Ptr) (mlen : Nat) (c : Ptr) : CM Unit :=
  ifThen (mlen > 0) do
    let s ← D.pE s
    let t0 := D.fromWord s.x0
    forN mlen 0 (fun i (_ : Unit) => do
      let d ← load8 (m + i)
      store8 (c + i) (d ^^^ byteOf o t0 i)) ()

/-- `isap_enc`, `opt_64/isap.c` lines 149-187 -/
def isapEnc (k npub m : Ptr) (mlen : Nat) (c : Ptr) : CM Unit := do
  let s ← isapRk o D k (iv 3) (.ext npub) ⟨0, 0, 0, 0, 0⟩ 24
  let n0 ← load64In o (npub + 0)
  let n1 ← load64In o (npub + 8)
  let s := { s with x3 := D.toWord n0, x4 := D.toWord n1 }
  let s ← whileGe 8 (by decide) mlen 0 (fun i (s : State) => do
    let s ← D.pE s
    let t0 := D.fromWord s.x0
    let d ← load64In o (m + 8 * i)
    store64In o (c + 8 * i) (d ^^^ t0)
    pure s) s
  encTail o D s (m + 8 * (mlen / 8)) (mlen % 8) (c + 8 * (mlen / 8))

/-- The implementation.  `isapa128av20/opt_64/isap.c` lines 105-187. -/
def impl : Impl where
  enc := isapEnc o D
  mac := isapMac o D
  tagAlign := 1

theorem impl_little : impl .little D = Opt.impl D := rfl

/-- One iteration of the squeezing loop of `crypto_hash`, `opt_64/isap.c` lines 213-221 -/
def squeezeStep (out : Ptr) (i : Nat) (s : State) : CM State := do
  store64In o (out + 8 * i) (D.fromWord s.x0)
  let b ← branch (i < 3)
  if b then D.pH s else pure s

/-- `crypto_hash`, `opt_64/isap.c` lines 197-224 -/
def cryptoHash (out inp : Ptr) (inlen : Nat) : CM Int := do
  let s ← D.pH ⟨D.toWord (word o hashIV), 0, 0, 0, 0⟩
  let s ← absorbLanes o D s inp inlen
  let _ ← forN 4 0 (squeezeStep o D out) s
  pure 0

theorem cryptoHash_little : cryptoHash .little D = Opt.cryptoHash D := rfl

end Opt.Ord

namespace Opt.Ord.Opt8
variable (o : ByteOrder)

/-- `XMUL(i, bit_rol)`, `opt_8/asconp.h` lines 52-58 -/
def xmul (a : BitVec 64) (byteRol bitRol i : Nat) (b : BitVec 64) : BitVec 64 :=
  let tmp : BitVec 16 := (byteOf o a i).setWidth 16 * (1 <<< bitRol)
  let b := xorByte o b ((byteRol + i) &&& 7) (tmp.setWidth 8)
  xorByte o b ((byteRol + i + 1) &&& 7) ((tmp >>> 8).setWidth 8)

/-- `ROR`, `opt_8/asconp.h` lines 60-75 -/
def ror (x : BitVec 64) (n : Nat) : BitVec 64 :=
  let bitRol := (64 - n) &&& 7
  let byteRol := (64 - n) >>> 3
  (List.range 8).foldl (fun b i => xmul o x byteRol bitRol i b) 0

/-- `x.b[j] = v`: the union `lane_t`, `opt_8/asconp.h` lines 7-12; used in lines 52-75 and 106-129 -/
def setByte (x : BitVec 64) (j : Nat) (v : Byte) : BitVec 64 :=
  (x &&& ~~~ (0xff#64 <<< shiftOf o j)) ||| (v.setWidth 64 <<< shiftOf o j)

/-- `NONLINEAR_LAYER`, `opt_8/asconp.h` lines 106-129 -/
def nonlinear (s : State × BitVec 64) (pos : Nat) : State × BitVec 64 :=
  let a0 := byteOf o s.1.x0 pos
  let a1 := byteOf o s.1.x1 pos
  let a2 := byteOf o s.1.x2 pos
  let a3 := byteOf o s.1.x3 pos
  let a4 := byteOf o s.1.x4 pos
  let t0 := a1 ^^^ a2
  let t1 := a0 ^^^ a4
  let t2 := a3 ^^^ a4
  let a4 := a3 ||| ~~~ a4
  let a4 := a4 ^^^ t0
  let a3 := a3 ^^^ a1
  let a3 := a3 ||| t0
  let a3 := a3 ^^^ t1
  let a2 := a2 ^^^ t1
  let a2 := a2 ||| a1
  let a2 := a2 ^^^ t2
  let a1 := a1 &&& ~~~ t1
  let a1 := a1 ^^^ t2
  let a0 := a0 ||| t2
  let xt := a0 ^^^ t0
  (⟨setByte o s.1.x0 pos a0, setByte o s.1.x1 pos a1, setByte o s.1.x2 pos a2, setByte o s.1.x3 pos a3,
    setByte o s.1.x4 pos a4⟩, setByte o s.2 pos xt)

/-- `LINEAR_LAYER`, `opt_8/asconp.h` lines 89-102 -/
def linear (s : State) (xtemp : BitVec 64) : State :=
  let temp := s.x2 ^^^ ror o s.x2 (28 - 19)
  let x0 := s.x2 ^^^ ror o temp 19
  let temp := s.x4 ^^^ ror o s.x4 (6 - 1)
  let x2 := s.x4 ^^^ ror o temp 1
  let temp := s.x1 ^^^ ror o s.x1 (41 - 7)
  let x4 := s.x1 ^^^ ror o temp 7
  let temp := s.x3 ^^^ ror o s.x3 (61 - 39)
  let x1 := s.x3 ^^^ ror o temp 39
  let temp := xtemp ^^^ ror o xtemp (17 - 10)
  let x3 := xtemp ^^^ ror o temp 10
  ⟨x0, x1, x2, x3, x4⟩

/-- `ROUND`, `opt_8/asconp.h` lines 133-143 -/
def round (s : State) (c : Byte) : State :=
  let s := { s with x2 := xorByte o s.x2 0 c }
  let r := (List.range 8).foldl (nonlinear o) (s, 0)
  linear o r.1 r.2

/-- opt_8: `opt_8/asconp.h` lines 24-37 -/
def prims : Prims := viaProunds (switchRounds (round o) c12 c6 c1) u64big u64big id
/-- opt_8_tiny: `opt_8_tiny/asconp.h` lines 24-37 -/
def primsTiny : Prims := viaProunds (tinyRounds (round o)) u64big u64big id

theorem prims_little : prims .little = Opt.Opt8.prims := rfl
theorem primsTiny_little : primsTiny .little = Opt.Opt8.primsTiny := rfl

end Opt.Ord.Opt8

/-- The implementations of ISAP-A-128a whose `asconp.h` has no 32-bit halves of lanes. -/
inductive PortableA where
  | opt64
  | opt32
  | opt32Compact
  | opt32Tiny
  | opt8
  | opt8Tiny

/-- `asconp.h`: the macros of opt_64 and the versions of opt_32 use only the 64-bit words of the state. -/
def PortableA.prims (o : ByteOrder) : PortableA → Opt.Prims
  | .opt64 => Opt.Opt64.prims
  | .opt32 => Opt.Opt32.prims
  | .opt32Compact => Opt.Opt32.primsCompact
  | .opt32Tiny => Opt.Opt32.primsTiny
  | .opt8 => Opt.Ord.Opt8.prims o
  | .opt8Tiny => Opt.Ord.Opt8.primsTiny o

/-- The API on platforms with byte order `o`.  `crypto_aead.c` lines 5-61. -/
def PortableA.aead (v : PortableA) (o : ByteOrder) : Aead := (Opt.Ord.impl o (v.prims o)).aeadIn o

/-- `crypto_hash` on platforms with byte order `o`.  `isapa128av20/opt_64/isap.c` lines 195-224. -/
def PortableA.hash (v : PortableA) (o : ByteOrder) : Ptr → Ptr → Nat → CM Int := Opt.Ord.cryptoHash o (v.prims o)

/-- The same implementation as a target, which means a little-endian platform.  No counterpart in `/repo`: it connects the
two models. -/
def PortableA.target : PortableA → Target
  | .opt64 => .a128aOpt64
  | .opt32 => .a128aOpt32
  | .opt32Compact => .a128aOpt32Compact
  | .opt32Tiny => .a128aOpt32Tiny
  | .opt8 => .a128aOpt8
  | .opt8Tiny => .a128aOpt8Tiny


/-- `isapa128av20/ref`, `isapa128v20/ref`: the code accesses memory and its state by single bytes only.  `ref/isap.c`,
`ref/Ascon-reference.c` lines 15-28. -/
def asconRefIn (o : ByteOrder) (G : Ref.Cfg) : Aead := (Ref.impl G).aeadIn o

theorem aeadIn_little (I : Impl) : I.aeadIn .little = I.aead := rfl

end Model
