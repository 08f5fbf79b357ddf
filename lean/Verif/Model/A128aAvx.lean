import Verif.Model.A128
import Verif.Model.Calls
import Verif.C.Simd
/-!
# Model of the AVX-512 version of ISAP-A-128a

`crypto_aead/isapa128av20/avx_512/isap.c` and `crypto_aead.c`.  The functions `isap_rk`, `isap_mac`, `isap_enc` (lines 199-352)
differ from those of `isapa128v20/opt_64` only in the number of rounds; `isap_mac_enc` encrypts and authenticates in one pass.
`u32` is `unsigned long`, whose size depends on the data model.
-/

namespace Model.A128.Avx
open C
open Opt (State)
open Opt64 (u64big p12 padByte isapRk absorbLanes)

/-- `ISAP_IV1`, `ISAP_IV2`, `ISAP_IV3`, lines 12-14 with the macros of `isap.h` lines 5-27. -/
def iv (i : Nat) : List Byte := [BitVec.ofNat 8 i, 128, 64, 1, 12, 1, 6, 12]

/-- `P1`, lines 152-154 -/
def p1 (s : State) : State := Opt.seqRounds Opt64.round [0x4b] s

/-- `P6`, lines 125-132 -/
def p6 (s : State) : State := Opt.seqRounds Opt64.round [0x96, 0x87, 0x78, 0x69, 0x5a, 0x4b] s

/-- The functions shared with `isapa128v20/opt_64`.  `avx_512/isap.c` lines 199-352, with `P12`, `P1`, `P6` of lines
110-154. -/
def cfg (d : DataModel) : Opt64.Cfg := ⟨iv, p12, p1, p6, d⟩

/-! ## Two permutations at once -/

/-- The five registers `x0a`, ..., `x4a` of two 64-bit lanes each: the low lanes hold the state of the encryption, the high
lanes that of the authentication.  All instructions used act on the lanes separately.  `avx_512/isap.c` lines 404-420. -/
structure Two where
  lo : State
  hi : State

/-- `ROUNDAVX`, lines 76-108, in one of the lanes. -/
def roundLane (s : State) (c : BitVec 64) : State :=
  let x2 := Simd.tern 0x96#8 s.x2 c s.x1
  let x0 := s.x0 ^^^ s.x4
  let x4 := s.x4 ^^^ s.x3
  let t0 := x0
  let t4 := x4
  let t3 := s.x3
  let t1 := s.x1
  let t2 := x2
  let x0 := Simd.tern 0xd2#8 t0 t1 t2
  let x2 := Simd.tern 0xd2#8 t2 t3 t4
  let x4 := Simd.tern 0xd2#8 t4 t0 t1
  let x1 := Simd.tern 0xd2#8 t1 t2 t3
  let x3 := Simd.tern 0xd2#8 t3 t4 t0
  let x1 := x1 ^^^ x0
  let x3 := x3 ^^^ x2
  let x0 := x0 ^^^ x4
  let t0 := x0.rotateRight 19
  let t1 := x0.rotateRight 28
  let t2 := x1.rotateRight 39
  let t3 := x1.rotateRight 61
  let x0 := Simd.tern 0x96#8 x0 t0 t1
  let x1 := Simd.tern 0x96#8 x1 t2 t3
  let t0 := x2.rotateRight 1
  let t1 := x2.rotateRight 6
  let t2 := x3.rotateRight 10
  let t3 := x3.rotateRight 17
  let x2 := Simd.tern 0x69#8 x2 t0 t1
  let x3 := Simd.tern 0x96#8 x3 t2 t3
  let t0 := x4.rotateRight 7
  let t1 := x4.rotateRight 41
  let x4 := Simd.tern 0x96#8 x4 t0 t1
  ⟨x0, x1, x2, x3, x4⟩

/-- `ROUNDAVX(C1, C2)`: `_mm_set_epi64x (C1, C2)` has `C1` in the high lane.  `avx_512/isap.c` lines 76-108. -/
def roundAvx (x : Two) (c : BitVec 64 × BitVec 64) : Two := ⟨roundLane x.lo c.2, roundLane x.hi c.1⟩

/-- `P6_avx_first`, lines 134-141 -/
def p6first (x : Two) : Two :=
  [(0xf0, 0x96), (0xe1, 0x87), (0xd2, 0x78), (0xc3, 0x69), (0xb4, 0x5a), (0xa5, 0x4b)].foldl roundAvx x

/-- `P6_avx_second`, lines 143-150 -/
def p6second (x : Two) : Two :=
  [(0x96, 0x96), (0x87, 0x87), (0x78, 0x78), (0x69, 0x69), (0x5a, 0x5a), (0x4b, 0x4b)].foldl roundAvx x

/-! ## `isap_mac_enc` -/

/-- Conversion of a `long long` to an unsigned 64-bit type.  Used for `rem_enc_bytes`, `rem_mac_bytes` (`avx_512/isap.c`
lines 425, 433) where they meet unsigned operands. -/
def u64 (i : Int) : Nat := (i % 2 ^ 64).toNat

/-- Conversion of an `unsigned long long` to `long long`.  `avx_512/isap.c` lines 425, 433. -/
def i64 (n : Nat) : Int := if n < 2 ^ 63 then n else (n : Int) - 2 ^ 64

/-- `encbytes1`, lines 438-441 -/
def encbytes1 (rem : Int) : CM Nat := do
  let b ← branch (rem ≥ 8)
  if b then pure 8 else pure (u64 rem)

/-- `encbytes2`, lines 442-448; `rem_enc_bytes-encbytes1` is unsigned. -/
def encbytes2 (rem : Int) (n1 : Nat) : CM Nat := do
  let b ← branch (u64 (rem - n1) ≥ 8)
  if b then pure 8
  else do
    let b ← branch (n1 < 8)
    if b then pure 0 else pure (u64 (rem - n1))

/-- `tmpm1` and `tmpm2`, lines 449-452: bytes of the message, the last one first. -/
def loadMsg (p : Ptr) (n : Nat) : CM (BitVec 64) :=
  forN n 0 (fun i t => do
    let d ← load8 (p + (n - i - 1))
    pure ((t <<< 8) ||| d.setWidth 64)) 0

/-- `lane8`, lines 457-467 and 519-529: the next bytes of the ciphertext with padding.  As the bytes with `i<rem_mac_bytes` come
first, `idx8_mac` is the sum of `idx` and `i` where `c` is read. -/
def macLane (c : Ptr) (idx : Nat) (rem : Int) : CM (List Byte) := forN 8 0 (padByte (c + idx) (u64 rem)) []

/-- `idx8_mac` after these lines (a `u32`; as it is a multiple of 8 before, it does not wrap around in between).
`avx_512/isap.c` lines 461, 523. -/
def nextIdx (d : DataModel) (idx : Nat) (rem : Int) : Nat := (idx + min 8 (u64 rem)) % d.ulong

/-- Lines 455-470: `tmpc_mac[1]`, `idx8_mac`, `rem_mac_bytes`.  The comparison `rem_enc_bytes < mlen` is unsigned. -/
def macInput (d : DataModel) (c : Ptr) (mlen : Nat) (rem : Int) (idx : Nat) (remMac : Int) : CM (BitVec 64 × Nat × Int) := do
  let b ← branch (u64 rem < mlen)
  if b then do
    let lane ← macLane c idx remMac
    pure (u64big (le64 lane), nextIdx d idx remMac, remMac - 8)
  else pure (0, idx, remMac)

/-- Lines 487-496: store the first `n` bytes of `tmpc1` or `tmpc2`. -/
def storeLane (c : Ptr) (x : BitVec 64) (n : Nat) : CM Unit :=
  forN n 0 (fun i (_ : Unit) => do
    let d ← (Src.loc (toLe64 x)).get i
    store8 (c + i) d) ()

/-- The variables of the first loop, except `rem_enc_bytes`.  `avx_512/isap.c` lines 404-433. -/
structure Loc where
  /-- `x0a`, ..., `x4a` -/
  x : Two
  /-- `idx8_enc`, `idx8_mac` -/
  idxEnc : Nat
  idxMac : Nat
  /-- `rem_mac_bytes` -/
  remMac : Int
  /-- the high lane of `domain_separation`; the low lane is 0 -/
  ds : BitVec 64

/-- The body of the first loop, lines 435-498.  `_mm_mask_storeu_epi64 (tmp, 1, x0a)` stores the low lane in `tmp[0]`.
`idx8_enc` is a `u32`; as it is a multiple of 16 at the beginning, it does not wrap around before the end. -/
def body (d : DataModel) (m c : Ptr) (mlen : Nat) (rem : Int) (v : Loc) : CM Loc := do
  let n1 ← encbytes1 rem
  let n2 ← encbytes2 rem n1
  let m1 ← loadMsg (m + v.idxEnc) n1
  let m2 ← loadMsg (m + (v.idxEnc + n1)) n2
  let (w, idxMac, remMac) ← macInput d c mlen rem v.idxMac v.remMac
  let x : Two := { v.x with hi := { v.x.hi with x0 := v.x.hi.x0 ^^^ w } }
  let x := p6first x
  let c1 := u64big x.lo.x0 ^^^ m1
  let x := p6second x
  let c2 := u64big x.lo.x0 ^^^ m2
  let x : Two := { x with hi := { x.hi with x4 := x.hi.x4 ^^^ v.ds } }
  storeLane (c + v.idxEnc) c1 n1
  storeLane (c + (v.idxEnc + n1)) c2 n2
  pure ⟨x, (v.idxEnc + n1 + n2) % d.ulong, idxMac, remMac, ~~~ v.ds &&& v.ds⟩

/-- `do { body; rem -= 16; } while (rem > 0)`, lines 434-499 -/
def doWhile {σ : Type} (body : Int → σ → CM σ) (rem : Int) (v : σ) : CM σ := do
  let v ← body rem v
  if rem - 16 > 0 then do
    let _ ← branch true
    doWhile body (rem - 16) v
  else do
    let _ ← branch false
    pure v
termination_by rem.toNat

/-- The second loop, lines 517-533: absorb the rest of the ciphertext. -/
def macRest (d : DataModel) (c : Ptr) (rem : Int) (idx : Nat) (s : State) : CM State :=
  if rem ≥ 0 then do
    let _ ← branch true
    let lane ← macLane c idx rem
    let s := p12 { s with x0 := s.x0 ^^^ u64big (le64 lane) }
    macRest d c (rem - 8) (nextIdx d idx rem) s
  else do
    let _ ← branch false
    pure s
termination_by (rem + 8).toNat

/-- The first part of `isap_mac_enc`, lines 374-433: the states of encryption and authentication.  (The first keeps the words
`npub64[0]`, `npub64[1]` in memory between lines 383 and 401.) -/
def start (d : DataModel) (k npub ad : Ptr) (adlen : Nat) : CM Two := do
  let t ← isapRk (cfg d) k (iv 3) (.ext npub) ⟨0, 0, 0, 0, 0⟩ 24
  let n0 ← load64 (npub + 0)
  let n1 ← load64 (npub + 8)
  let n0' ← load64 (npub + 0)
  let n1' ← load64 (npub + 8)
  let s := p12 ⟨u64big n0', u64big n1', u64big (le64 (iv 1)), 0, 0⟩
  let s ← absorbLanes p12 d s ad adlen
  pure ⟨⟨u64big t.x0, u64big t.x1, u64big t.x2, u64big n0, u64big n1⟩, s⟩

/-- `isap_mac_enc`, lines 359-554, called with `clen = mlen`.  Returns the bytes stored in `tag`. -/
def isapMacEnc (d : DataModel) (k npub ad : Ptr) (adlen : Nat) (c m : Ptr) (mlen : Nat) : CM (List Byte) := do
  let x ← start d k npub ad adlen
  let v ← doWhile (body d m c mlen) (i64 mlen) ⟨x, 0, 0, i64 mlen, 1⟩
  let s ← macRest d c v.remMac v.idxMac v.x.hi
  let t : State := ⟨u64big s.x0, u64big s.x1, u64big s.x2, u64big s.x3, u64big s.x4⟩
  let t ← isapRk (cfg d) k (iv 2) (.loc (toLe64 t.x0 ++ toLe64 t.x1)) t 16
  let s := p12 ⟨u64big t.x0, u64big t.x1, u64big t.x2, u64big t.x3, u64big t.x4⟩
  pure (toLe64 (u64big s.x0) ++ toLe64 (u64big s.x1))

/-- `isap.c` -/
def impl (d : DataModel) : Impl := Opt64.impl (cfg d)

/-- `crypto_aead_encrypt`: `crypto_aead.c` lines 5-22. -/
def encrypt (d : DataModel) (c clen m : Ptr) (mlen : Nat) (ad : Ptr) (adlen : Nat) (_nsec npub k : Ptr) : CM Int := do
  storeLen clen (mlen + 16)
  let tag ← isapMacEnc d k npub ad adlen c m mlen
  storeTag 8 (c + mlen) tag
  pure 0

/-- The API: `crypto_aead_decrypt` is the common one.  `avx_512/crypto_aead.c` lines 5-56. -/
def aead (d : DataModel) : Aead where
  encrypt a := encrypt d a.c a.clen a.m a.mlen a.ad a.adlen a.nsec a.npub a.k
  decrypt a := Model.decrypt (impl d) a.m a.mlen a.nsec a.c a.clen a.ad a.adlen a.npub a.k

end Model.A128.Avx
