import Verif.Model.BoundsOpt
/-!
# The optimized ISAP-A-128 versions and avx_512 of ISAP-A-128a with checked accesses to their arrays

As `Model/A128.lean` and `Model/A128aAvx.lean`; see `Model/BoundsOpt.lean`.
-/

namespace Model.A128
open C
open Opt (State)
open Opt.Chk (words readState)

/-! ## opt_64 -/

namespace Opt64.Chk

/-- One iteration of the loop that fills `lane8`, `isapa128v20/opt_64/isap.c` lines 127-136: `lane8[i]` is written. -/
def padByte (src : Ptr) (rem i : Nat) (lane : Arr Byte) : CM (Arr Byte) := do
  let b ← branch (i < rem)
  if b then
    let d ← load8 (src + i)
    aset lane i d
  else
    let b ← branch (i = rem)
    if b then aset lane i 0x80 else aset lane i 0

/-- `ABSORB_MAC`, lines 107-142, without the last `P12`; `lane64` (line 124) is not initialised. -/
def absorbLanes (pH : State → State) (d : DataModel) (s : State) (src : Ptr) (len : Nat) : CM State :=
  whileRem 8 (by decide) (len % d.ulong) 0
    (fun i (s : State) => do
      let d ← load64 (src + 8 * i)
      pure (pH { s with x0 := s.x0 ^^^ u64big d }))
    (fun i s => do
      let d ← load64 (src + 8 * i)
      let s := pH { s with x0 := s.x0 ^^^ u64big d }
      pure { s with x0 := s.x0 ^^^ 0x8000000000000000 })
    (fun i rem s => do
      let lane ← forN 8 0 (padByte (src + 8 * i) rem) (Arr.new 8)
      let bs ← areads lane 0 8
      pure { s with x0 := s.x0 ^^^ u64big (le64 bs) }) s

/-- `ABSORB_MAC`, lines 107-142 -/
def absorbMac (pH : State → State) (d : DataModel) (s : State) (src : Ptr) (len : Nat) : CM State := do
  let s ← absorbLanes pH d s src len
  pure (pH s)

variable (D : Cfg)

/-- `isap_rk`, lines 148-188; `((u64 *)iv)[0]` reads 8 bytes of the table, `out64` has the elements 0, 1 and maybe 2. -/
def isapRk (k : Ptr) (iv : Arr Byte) (y : CSrc) (out : Arr (BitVec 64)) (outlen : Nat) : CM (Arr (BitVec 64)) := do
  let k0 ← load64 (k + 0)
  let k1 ← load64 (k + 8)
  let v ← areads iv 0 8
  let s := D.pH ⟨u64big k0, u64big k1, u64big (le64 v), 0, 0⟩
  let s ← forN 127 0 (fun i (s : State) => do
    let yb ← y.get (i / 8)
    pure (D.pB { s with x0 := s.x0 ^^^ ((yBit yb i).setWidth 64 <<< 56) })) s
  let yb ← y.get 15
  let s := D.pH { s with x0 := s.x0 ^^^ (((yb &&& 1) <<< 7).setWidth 64 <<< 56) }
  let out ← aset out 0 (u64big s.x0)
  let out ← aset out 1 (u64big s.x1)
  let b ← branch (outlen = 24)
  if b then aset out 2 (u64big s.x2) else pure out

/-- The first part of `isap_mac`, lines 209-222. -/
def macAbsorb (npub ad : Ptr) (adlen : Nat) (c : Ptr) (clen : Nat) : CM State := do
  let n0 ← load64 (npub + 0)
  let n1 ← load64 (npub + 8)
  let v ← areads (Arr.of (D.iv 1)) 0 8
  let s := D.pH ⟨u64big n0, u64big n1, u64big (le64 v), 0, 0⟩
  let s ← absorbMac D.pH D.dm s ad adlen
  let s := { s with x4 := s.x4 ^^^ 1 }
  absorbMac D.pH D.dm s c clen

/-- `isap_mac`, lines 194-242; `state64` has five words. -/
def isapMac (k npub ad : Ptr) (adlen : Nat) (c : Ptr) (clen : Nat) : CM (List Byte) := do
  let s ← macAbsorb D npub ad adlen c clen
  let t : State := ⟨u64big s.x0, u64big s.x1, u64big s.x2, u64big s.x3, u64big s.x4⟩
  let st ← awrites (Arr.new 5) 0 (words t)
  let st ← isapRk D k (Arr.of (D.iv 2)) (.arr (Arr.of (toLe64 t.x0 ++ toLe64 t.x1))) st 16
  let t ← readState st
  let s := D.pH ⟨u64big t.x0, u64big t.x1, u64big t.x2, u64big t.x3, u64big t.x4⟩
  pure (toLe64 (u64big s.x0) ++ toLe64 (u64big s.x1))

/-- `isap_enc`, lines 248-299; `state64` is not initialised, `lane8` is the array of the bytes of `lane64`. -/
def isapEnc (k npub m : Ptr) (mlen : Nat) (c : Ptr) : CM Unit := do
  let st ← isapRk D k (Arr.of (D.iv 3)) (.ext npub) (Arr.new 5) 24
  let t0 ← aget st 0
  let t1 ← aget st 1
  let t2 ← aget st 2
  let n0 ← load64 (npub + 0)
  let n1 ← load64 (npub + 8)
  let s := D.pE ⟨u64big t0, u64big t1, u64big t2, u64big n0, u64big n1⟩
  let _ ← whileRem 8 (by decide) mlen 0
    (fun i (s : State) => do
      let d ← load64 (m + 8 * (i % D.dm.ulong))
      store64 (c + 8 * (i % D.dm.ulong)) (u64big s.x0 ^^^ d)
      pure (D.pE s))
    (fun i s => do
      let d ← load64 (m + 8 * (i % D.dm.ulong))
      store64 (c + 8 * (i % D.dm.ulong)) (u64big s.x0 ^^^ d)
      pure s)
    (fun i rem s => do
      let lane := Arr.of (toLe64 (u64big s.x0))
      forN rem 0 (fun j (_ : Unit) => do
        let d ← load8 (m + 8 * i % D.dm.ulong + j)
        let x ← aget lane j
        store8 (c + 8 * i % D.dm.ulong + j) (x ^^^ d)) ()
      pure s) s
  pure ()

/-- The implementation.  `isapa128v20/opt_64/isap.c` lines 194-299. -/
def impl : Impl where
  enc := isapEnc D
  mac := isapMac D
  tagAlign := 8

end Opt64.Chk

/-! ## avx_512 -/

namespace Avx.Chk

/-- `lane8`, `isapa128av20/avx_512/isap.c` lines 457-467 and 519-529: the bytes of `tmpc_mac[1]`, which is 0 before. -/
def macLane (c : Ptr) (idx : Nat) (rem : Int) : CM (List Byte) := do
  let lane ← forN 8 0 (Opt64.Chk.padByte (c + idx) (u64 rem)) (Arr.of (List.replicate 8 0))
  areads lane 0 8

/-- Lines 455-470 -/
def macInput (d : DataModel) (c : Ptr) (mlen : Nat) (rem : Int) (idx : Nat) (remMac : Int) : CM (BitVec 64 × Nat × Int) := do
  let b ← branch (u64 rem < mlen)
  if b then do
    let lane ← macLane c idx remMac
    pure (Opt64.u64big (le64 lane), nextIdx d idx remMac, remMac - 8)
  else pure (0, idx, remMac)

/-- Lines 487-496: `lane8` is the array of the bytes of `tmpc1` or `tmpc2`. -/
def storeLane (c : Ptr) (x : BitVec 64) (n : Nat) : CM Unit :=
  forN n 0 (fun i (_ : Unit) => do
    let d ← aget (Arr.of (toLe64 x)) i
    store8 (c + i) d) ()

/-- The body of the first loop, lines 435-498. -/
def body (d : DataModel) (m c : Ptr) (mlen : Nat) (rem : Int) (v : Loc) : CM Loc := do
  let n1 ← encbytes1 rem
  let n2 ← encbytes2 rem n1
  let m1 ← loadMsg (m + v.idxEnc) n1
  let m2 ← loadMsg (m + (v.idxEnc + n1)) n2
  let (w, idxMac, remMac) ← macInput d c mlen rem v.idxMac v.remMac
  let x : Two := { v.x with hi := { v.x.hi with x0 := v.x.hi.x0 ^^^ w } }
  let x := p6first x
  let c1 := Opt64.u64big x.lo.x0 ^^^ m1
  let x := p6second x
  let c2 := Opt64.u64big x.lo.x0 ^^^ m2
  let x : Two := { x with hi := { x.hi with x4 := x.hi.x4 ^^^ v.ds } }
  storeLane (c + v.idxEnc) c1 n1
  storeLane (c + (v.idxEnc + n1)) c2 n2
  pure ⟨x, (v.idxEnc + n1 + n2) % d.ulong, idxMac, remMac, ~~~ v.ds &&& v.ds⟩

/-- The second loop, lines 517-533. -/
def macRest (d : DataModel) (c : Ptr) (rem : Int) (idx : Nat) (s : State) : CM State :=
  if rem ≥ 0 then do
    let _ ← branch true
    let lane ← macLane c idx rem
    let s := Opt64.p12 { s with x0 := s.x0 ^^^ Opt64.u64big (le64 lane) }
    macRest d c (rem - 8) (nextIdx d idx rem) s
  else do
    let _ ← branch false
    pure s
termination_by (rem + 8).toNat

/-- The first part of `isap_mac_enc`, lines 374-433; `state_enc64` (line 379) is not initialised. -/
def start (d : DataModel) (k npub ad : Ptr) (adlen : Nat) : CM Two := do
  let st ← Opt64.Chk.isapRk (cfg d) k (Arr.of (iv 3)) (.ext npub) (Arr.new 5) 24
  let n0 ← load64 (npub + 0)
  let st ← aset st 3 n0
  let n1 ← load64 (npub + 8)
  let st ← aset st 4 n1
  let n0' ← load64 (npub + 0)
  let n1' ← load64 (npub + 8)
  let v ← areads (Arr.of (iv 1)) 0 8
  let s := Opt64.p12 ⟨Opt64.u64big n0', Opt64.u64big n1', Opt64.u64big (le64 v), 0, 0⟩
  let s ← Opt64.Chk.absorbLanes Opt64.p12 d s ad adlen
  let t ← readState st
  pure ⟨⟨Opt64.u64big t.x0, Opt64.u64big t.x1, Opt64.u64big t.x2, Opt64.u64big t.x3, Opt64.u64big t.x4⟩, s⟩

/-- `isap_mac_enc`, lines 359-554; `state_mac64` has five words.  (The elements of `tmp[2]` are accessed with literal indices;
the vector accesses in lines 408-420 and later are masked to the two elements.) -/
def isapMacEnc (d : DataModel) (k npub ad : Ptr) (adlen : Nat) (c m : Ptr) (mlen : Nat) : CM (List Byte) := do
  let x ← start d k npub ad adlen
  let v ← doWhile (body d m c mlen) (i64 mlen) ⟨x, 0, 0, i64 mlen, 1⟩
  let s ← macRest d c v.remMac v.idxMac v.x.hi
  let t : State := ⟨Opt64.u64big s.x0, Opt64.u64big s.x1, Opt64.u64big s.x2, Opt64.u64big s.x3, Opt64.u64big s.x4⟩
  let st ← awrites (Arr.new 5) 0 (words t)
  let st ← Opt64.Chk.isapRk (cfg d) k (Arr.of (iv 2)) (.arr (Arr.of (toLe64 t.x0 ++ toLe64 t.x1))) st 16
  let t ← readState st
  let s := Opt64.p12 ⟨Opt64.u64big t.x0, Opt64.u64big t.x1, Opt64.u64big t.x2, Opt64.u64big t.x3, Opt64.u64big t.x4⟩
  pure (toLe64 (Opt64.u64big s.x0) ++ toLe64 (Opt64.u64big s.x1))

/-- `crypto_aead_encrypt`: `isapa128av20/avx_512/crypto_aead.c` lines 5-22. -/
def encrypt (d : DataModel) (c clen m : Ptr) (mlen : Nat) (ad : Ptr) (adlen : Nat) (_nsec npub k : Ptr) : CM Int := do
  storeLen clen (mlen + 16)
  let tag ← isapMacEnc d k npub ad adlen c m mlen
  storeTag 8 (c + mlen) tag
  pure 0

/-- The API.  `isapa128av20/avx_512/crypto_aead.c` lines 5-56. -/
def aead (d : DataModel) : Aead where
  encrypt a := encrypt d a.c a.clen a.m a.mlen a.ad a.adlen a.nsec a.npub a.k
  decrypt a := Model.Chk.decrypt (Opt64.Chk.impl (cfg d)) a.m a.mlen a.nsec a.c a.clen a.ad a.adlen a.npub a.k

end Avx.Chk

/-! ## opt_32 and opt_32_armv67m -/

namespace Opt32.Chk

/-- `PX(rounds, ...)`, `isapa128v20/opt_32/asconp.h` lines 75-138, `P_LOOP`, `opt_32_armv67m/asconp.h` lines 138-148: the
elements `rc_e[r]`, `rc_o[r]` of the tables of 12 words. -/
def px (round : State → BitVec 32 → BitVec 32 → State) (rounds : Nat) (s : State) : CM State :=
  forN rounds (12 - rounds) (fun r (s : State) => do
    let e ← aget (Arr.of rcE) r
    let o ← aget (Arr.of rcO) r
    pure (round s e o)) s

/-- opt_32: `isapa128v20/opt_32/isap.c` lines 9-12 -/
def prims : Prims := ⟨px round 12, px round 12⟩

/-- opt_32_armv67m: `isapa128v20/opt_32_armv67m/isap.c` lines 9-15 -/
def primsArm : Prims := ⟨px roundArm 12, fun s => pure (p12Arm s)⟩

variable (D : Prims)

/-- `opt_32/isap.c` lines 98-114 and 137-153: `tmp0_bytes` is the array of the bytes of `tmp0`, which is 0 before. -/
def absorbPart (s : State) (src : Ptr) (len : Nat) : CM State := do
  let b ← branch (len > 0)
  if b then
    let tmp0 ← forN len 0 (fun i (t : Arr Byte) => do
      let d ← load8 (src + i)
      aset t i d) (Arr.of (List.replicate 8 0))
    let tmp0 ← aset tmp0 len 0x80
    let bs ← areads tmp0 0 8
    D.pL { s with x0 := s.x0 ^^^ toWord (le64 bs) }
  else pure s

/-- Absorb a string: `opt_32/isap.c` lines 87-121 and 126-160; `opt_32_armv67m/isap.c` lines 118-152, 157-191. -/
def absorb (s : State) (src : Ptr) (len : Nat) : CM State := do
  let s ← whileGe 8 (by decide) len 0 (fun i (s : State) => do
    let d ← load64 (src + 8 * i)
    D.pU { s with x0 := s.x0 ^^^ toWord d }) s
  let s ← absorbPart D s (src + 8 * (len / 8)) (len % 8)
  absorbPad D s (len % 8)

/-- `isap_rk`: `opt_32/isap.c` lines 18-59, `opt_32_armv67m/isap.c` lines 21-90.  `out` is an array of 32-bit words. -/
def isapRk (k : Ptr) (iv : Arr Byte) (y : CSrc) (out : Arr (BitVec 32)) (outlen : Nat) : CM (Arr (BitVec 32)) := do
  let k0 ← load64 (k + 0)
  let k1 ← load64 (k + 8)
  let v ← areads iv 0 8
  let s ← D.pL ⟨toWord k0, toWord k1, toWord (le64 v), 0, 0⟩
  let s ← forN 127 0 (fun i (s : State) => do
    let yb ← y.get (i / 8)
    D.pU (xorO s ((yBit yb i).setWidth 32 <<< 24))) s
  let yb ← y.get 15
  let s ← D.pL (xorO s (((yb &&& 1) <<< 7).setWidth 32 <<< 24))
  let out ← awrites out 0 [Opt.Bi32.w1 s.x0, Opt.Bi32.w0 s.x0, Opt.Bi32.w1 s.x1, Opt.Bi32.w0 s.x1]
  let b ← branch (outlen > 16)
  if b then awrites out 4 [Opt.Bi32.w1 s.x2, Opt.Bi32.w0 s.x2] else pure out

/-- The first part of `isap_mac`: `opt_32/isap.c` lines 77-160, `opt_32_armv67m/isap.c` lines 108-191. -/
def macAbsorb (npub ad : Ptr) (adlen : Nat) (c : Ptr) (clen : Nat) : CM State := do
  let n0 ← load64 (npub + 0)
  let n1 ← load64 (npub + 8)
  let v ← areads (Arr.of (iv 1)) 0 8
  let s ← D.pL ⟨toWord n0, toWord n1, toWord (le64 v), 0, 0⟩
  let s ← absorb D s ad adlen
  let s := { s with x4 := Opt.Bi32.lane (Opt.Bi32.w0 s.x4 ^^^ 1) (Opt.Bi32.w1 s.x4) }
  absorb D s c clen

/-- `isap_mac`: `opt_32/isap.c` lines 65-181, `opt_32_armv67m/isap.c` lines 96-212, with `ka_star32[4]`. -/
def isapMac (k npub ad : Ptr) (adlen : Nat) (c : Ptr) (clen : Nat) : CM (List Byte) := do
  let s ← macAbsorb D npub ad adlen c clen
  let ka ← isapRk D k (Arr.of (iv 2)) (.arr (Arr.of (toLe64 (fromWord s.x0) ++ toLe64 (fromWord s.x1)))) (Arr.new 4) 16
  let k0 ← aget ka 0
  let k1 ← aget ka 1
  let k2 ← aget ka 2
  let k3 ← aget ka 3
  let s ← D.pL { s with x0 := Opt.Bi32.lane k1 k0, x1 := Opt.Bi32.lane k3 k2 }
  pure (toLe64 (fromWord s.x0) ++ toLe64 (fromWord s.x1))

/-- The last part of `isap_enc`: `opt_32/isap.c` lines 222-235, `opt_32_armv67m/isap.c` lines 253-266, with the index of
`tmp0_bytes[i]`. -/
def encTail (s : State) (m : Ptr) (mlen : Nat) (c : Ptr) : CM Unit :=
  ifThen (mlen > 0) do
    let s ← D.pL s
    let tmp0 := fromWord s.x0
    forN mlen 0 (fun i (_ : Unit) => do
      let d ← load8 (m + i)
      let j ← Opt.Chk.ix8 i
      store8 (c + i) (d ^^^ Opt.byteOf tmp0 j)) ()

/-- `isap_enc`: `opt_32/isap.c` lines 187-236, `opt_32_armv67m/isap.c` lines 218-267, with the array `ke` of 24 bytes. -/
def isapEnc (k npub m : Ptr) (mlen : Nat) (c : Ptr) : CM Unit := do
  let ke ← isapRk D k (Arr.of (iv 3)) (.ext npub) (Arr.new 6) 24
  let k0 ← aget ke 0
  let k1 ← aget ke 1
  let k2 ← aget ke 2
  let k3 ← aget ke 3
  let k4 ← aget ke 4
  let k5 ← aget ke 5
  let n0 ← load64 (npub + 0)
  let n1 ← load64 (npub + 8)
  let s : State := ⟨Opt.Bi32.lane k1 k0, Opt.Bi32.lane k3 k2, Opt.Bi32.lane k5 k4, toWord n0, toWord n1⟩
  let s ← whileGe 8 (by decide) mlen 0 (fun i (s : State) => do
    let s ← D.pU s
    let d ← load64 (m + 8 * i)
    store64 (c + 8 * i) (d ^^^ fromWord s.x0)
    pure s) s
  encTail D s (m + 8 * (mlen / 8)) (mlen % 8) (c + 8 * (mlen / 8))

/-- The implementation.  `isapa128v20/opt_32/isap.c` lines 65-236, `opt_32_armv67m/isap.c` lines 96-267. -/
def impl : Impl where
  enc := isapEnc D
  mac := isapMac D
  tagAlign := 8

end Opt32.Chk
end Model.A128
