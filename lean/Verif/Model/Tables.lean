import Verif.Model.Hash
/-!
# The constant tables

The optimized implementations of ISAP-A-128a and ISAP-A-128 declare their initial values as arrays of bytes and read them through
pointers to 64-bit words.  In the other files of the model these arrays are constants without address; here they are objects in
memory.  (The reference code and the implementations of ISAP-K-128(a) read the tables byte by byte.)
-/

namespace Model
open C

/-- Addresses of `ISAP_IV_A`, `ISAP_IV_KA`, `ISAP_IV_KE` (in opt_64 and avx_512: `ISAP_IV1`, `ISAP_IV2`, `ISAP_IV3`).
`isapa128av20/opt_64/config.h` lines 9-11, `isapa128v20/opt_64/isap.c` lines 11-13. -/
structure Tables where
  a : Ptr
  ka : Ptr
  ke : Ptr

/-- `p` points to 8 bytes `bs` that can be read but not written.  `const uint8_t ISAP_IV_A[]`, ... in `config.h` lines 9-14. -/
structure ConstTable (e : Env) (s : St) (p : Ptr) (bs : List Byte) : Prop where
  rd : Readable e p 8
  ro : ∀ i, i < 8 → e.wr p.blk (p.off + i) = false
  bytes : bytesAt s p 8 = bs

namespace Opt
variable (D : Prims) (T : Tables)

/-- `isap_rk`, `isapa128av20/opt_64/isap.c` lines 47-99, with the table at `iv`.  Line 60 reads it; the order of lines 58-60 is
changed. -/
def isapRkAt (k iv : Ptr) (y : Src) (out : State) (outlen : Nat) : CM State := do
  let w ← load64 (iv + 0)
  isapRk D k (toLe64 w) y out outlen

/-- The first part of `isap_mac`, lines 112-131; the table is read in line 117. -/
def macAbsorbAt (npub ad : Ptr) (adlen : Nat) (c : Ptr) (clen : Nat) : CM State := do
  let n0 ← load64 (npub + 0)
  let n1 ← load64 (npub + 8)
  let w ← load64 (T.a + 0)
  let s ← D.pH ⟨D.toWord n0, D.toWord n1, D.toWord w, 0, 0⟩
  let s ← absorbLanes D s ad adlen
  let s := { s with x4 := s.x4 ^^^ 1 }
  absorbLanes D s c clen

/-- `isap_mac`, lines 105-143 -/
def isapMacAt (k npub ad : Ptr) (adlen : Nat) (c : Ptr) (clen : Nat) : CM (List Byte) := do
  let s ← macAbsorbAt D T npub ad adlen c clen
  let s := { s with x0 := D.fromWord s.x0, x1 := D.fromWord s.x1 }
  let s ← isapRkAt D k T.ka (.loc (toLe64 s.x0 ++ toLe64 s.x1)) s 16
  let s ← D.pH s
  pure (toLe64 (D.fromWord s.x0) ++ toLe64 (D.fromWord s.x1))

/-- `isap_enc`, lines 149-187 -/
def isapEncAt (k npub m : Ptr) (mlen : Nat) (c : Ptr) : CM Unit := do
  let s ← isapRkAt D k T.ke (.ext npub) ⟨0, 0, 0, 0, 0⟩ 24
  let n0 ← load64 (npub + 0)
  let n1 ← load64 (npub + 8)
  let s := { s with x3 := D.toWord n0, x4 := D.toWord n1 }
  let s ← whileGe 8 (by decide) mlen 0 (fun i (s : State) => do
    let s ← D.pE s
    let t0 := D.fromWord s.x0
    let d ← load64 (m + 8 * i)
    store64 (c + 8 * i) (d ^^^ t0)
    pure s) s
  encTail D s (m + 8 * (mlen / 8)) (mlen % 8) (c + 8 * (mlen / 8))

/-- The implementation with the tables `T`.  `isapa128av20/opt_64/isap.c` lines 105-187. -/
def implAt : Impl where
  enc := isapEncAt D T
  mac := isapMacAt D T
  tagAlign := 1

/-- `crypto_hash`, lines 197-224, with `ASCON_HASH_IV` at `iv`; line 202 reads it. -/
def cryptoHashAt (iv out inp : Ptr) (inlen : Nat) : CM Int := do
  let w ← load64 (iv + 0)
  let s ← D.pH ⟨D.toWord w, 0, 0, 0, 0⟩
  let s ← absorbLanes D s inp inlen
  let _ ← forN 4 0 (squeezeStep D out) s
  pure 0

end Opt

namespace Opt.Stp
variable (D : StpPrims) (T : Tables)

/-- `isap_mac`, `bi_32_stp/isap.c` lines 108-150 -/
def isapMacAt (k npub ad : Ptr) (adlen : Nat) (c : Ptr) (clen : Nat) : CM (List Byte) := do
  let s ← macAbsorbAt D.toPrims T npub ad adlen c clen
  setg .s0 s.x0
  setg .s1 s.x1
  let s := { s with x0 := D.fromWord s.x0, x1 := D.fromWord s.x1 }
  let s ← isapRkAt D.toPrims k T.ka (.loc (toLe64 s.x0 ++ toLe64 s.x1)) s 16
  let s ← D.pH s
  pure (toLe64 (D.fromWord s.x0) ++ toLe64 (D.fromWord s.x1))

/-- `isap_enc` and `isap_mac` with the tables `T`: `bi_32_stp/isap.c` lines 108-150, 199-237 -/
def implAt : Impl where
  enc := isapEncAt D.toPrims T
  mac := isapMacAt D T
  tagAlign := 1

/-- `crypto_aead_encrypt` and `crypto_aead_decrypt`, `bi_32_stp/crypto_aead.c` lines 5-68 -/
def aeadAt : Aead where
  encrypt := (implAt D T).aead.encrypt
  decrypt a := do
    storeLen a.mlen (a.clen + (2 ^ 64 - 16))
    let l ← loadLen a.mlen
    let tag ← isapMacAt D T a.k a.npub a.ad a.adlen a.c l
    let Tstar ← forN 16 0 (fun i (t : List Byte) => do
      let l ← loadLen a.mlen
      let b ← load8 (a.c + (l + i))
      pure (t ++ [b])) []
    let eqCnt ← pvp D tag Tstar
    let ok ← branch (eqCnt = 16)
    if ok then
      let l ← loadLen a.mlen
      ifThen (l > 0) do
        let l ← loadLen a.mlen
        isapEncAt D.toPrims T a.k a.npub a.c l a.m
      pure 0
    else
      pure (-1)

end Opt.Stp

namespace A128.Opt64
variable (D : Cfg) (T : Tables)

/-- `isap_rk`, `isapa128v20/opt_64/isap.c` lines 148-188, with the table at `iv`; it is read with the key in lines 164-166, here
before the key. -/
def isapRkAt (k iv : Ptr) (y : Src) (out : Opt.State) (outlen : Nat) : CM Opt.State := do
  let w ← load64 (iv + 0)
  isapRk D k (toLe64 w) y out outlen

/-- The first part of `isap_mac`, lines 209-222 -/
def macAbsorbAt (npub ad : Ptr) (adlen : Nat) (c : Ptr) (clen : Nat) : CM Opt.State := do
  let n0 ← load64 (npub + 0)
  let n1 ← load64 (npub + 8)
  let w ← load64 (T.a + 0)
  let s := D.pH ⟨u64big n0, u64big n1, u64big w, 0, 0⟩
  let s ← absorbMac D.pH D.dm s ad adlen
  let s := { s with x4 := s.x4 ^^^ 1 }
  absorbMac D.pH D.dm s c clen

/-- `isap_mac`, lines 194-242 -/
def isapMacAt (k npub ad : Ptr) (adlen : Nat) (c : Ptr) (clen : Nat) : CM (List Byte) := do
  let s ← macAbsorbAt D T npub ad adlen c clen
  let t : Opt.State := ⟨u64big s.x0, u64big s.x1, u64big s.x2, u64big s.x3, u64big s.x4⟩
  let t ← isapRkAt D k T.ka (.loc (toLe64 t.x0 ++ toLe64 t.x1)) t 16
  let s := D.pH ⟨u64big t.x0, u64big t.x1, u64big t.x2, u64big t.x3, u64big t.x4⟩
  pure (toLe64 (u64big s.x0) ++ toLe64 (u64big s.x1))

/-- `isap_enc`, lines 248-299 -/
def isapEncAt (k npub m : Ptr) (mlen : Nat) (c : Ptr) : CM Unit := do
  let t ← isapRkAt D k T.ke (.ext npub) ⟨0, 0, 0, 0, 0⟩ 24
  let n0 ← load64 (npub + 0)
  let n1 ← load64 (npub + 8)
  let s := D.pE ⟨u64big t.x0, u64big t.x1, u64big t.x2, u64big n0, u64big n1⟩
  let _ ← whileRem 8 (by decide) mlen 0
    (fun i (s : Opt.State) => do
      let d ← load64 (m + 8 * (i % D.dm.ulong))
      store64 (c + 8 * (i % D.dm.ulong)) (u64big s.x0 ^^^ d)
      pure (D.pE s))
    (fun i s => do
      let d ← load64 (m + 8 * (i % D.dm.ulong))
      store64 (c + 8 * (i % D.dm.ulong)) (u64big s.x0 ^^^ d)
      pure s)
    (fun i rem s => do
      let lane := toLe64 (u64big s.x0)
      forN rem 0 (fun j (_ : Unit) => do
        let d ← load8 (m + 8 * i % D.dm.ulong + j)
        store8 (c + 8 * i % D.dm.ulong + j) (lane.getD j 0 ^^^ d)) ()
      pure s) s
  pure ()

/-- The implementation with the tables `T`.  `isapa128v20/opt_64/isap.c` lines 194-299. -/
def implAt : Impl where
  enc := isapEncAt D T
  mac := isapMacAt D T
  tagAlign := 8

end A128.Opt64

namespace A128.Opt32
variable (D : Prims) (T : Tables)

/-- `isap_rk`: `isapa128v20/opt_32/isap.c` lines 18-59, `opt_32_armv67m/isap.c` lines 21-90; the table is read here before the key. -/
def isapRkAt (k iv : Ptr) (y : Src) (outlen : Nat) : CM (List (BitVec 32)) := do
  let w ← load64 (iv + 0)
  isapRk D k (toLe64 w) y outlen

/-- The first part of `isap_mac`: `opt_32/isap.c` lines 77-160, `opt_32_armv67m/isap.c` lines 108-191 -/
def macAbsorbAt (npub ad : Ptr) (adlen : Nat) (c : Ptr) (clen : Nat) : CM Opt.State := do
  let n0 ← load64 (npub + 0)
  let n1 ← load64 (npub + 8)
  let w ← load64 (T.a + 0)
  let s ← D.pL ⟨toWord n0, toWord n1, toWord w, 0, 0⟩
  let s ← absorb D s ad adlen
  let s := { s with x4 := Opt.Bi32.lane (Opt.Bi32.w0 s.x4 ^^^ 1) (Opt.Bi32.w1 s.x4) }
  absorb D s c clen

/-- `isap_mac`: `opt_32/isap.c` lines 65-181, `opt_32_armv67m/isap.c` lines 96-212 -/
def isapMacAt (k npub ad : Ptr) (adlen : Nat) (c : Ptr) (clen : Nat) : CM (List Byte) := do
  let s ← macAbsorbAt D T npub ad adlen c clen
  let ka ← isapRkAt D k T.ka (.loc (toLe64 (fromWord s.x0) ++ toLe64 (fromWord s.x1))) 16
  let s ← D.pL { s with x0 := Opt.Bi32.lane (ka.getD 1 0) (ka.getD 0 0), x1 := Opt.Bi32.lane (ka.getD 3 0) (ka.getD 2 0) }
  pure (toLe64 (fromWord s.x0) ++ toLe64 (fromWord s.x1))

/-- `isap_enc`: `opt_32/isap.c` lines 187-236, `opt_32_armv67m/isap.c` lines 218-267 -/
def isapEncAt (k npub m : Ptr) (mlen : Nat) (c : Ptr) : CM Unit := do
  let ke ← isapRkAt D k T.ke (.ext npub) 24
  let n0 ← load64 (npub + 0)
  let n1 ← load64 (npub + 8)
  let s : Opt.State := ⟨Opt.Bi32.lane (ke.getD 1 0) (ke.getD 0 0), Opt.Bi32.lane (ke.getD 3 0) (ke.getD 2 0),
    Opt.Bi32.lane (ke.getD 5 0) (ke.getD 4 0), toWord n0, toWord n1⟩
  let s ← whileGe 8 (by decide) mlen 0 (fun i (s : Opt.State) => do
    let s ← D.pU s
    let d ← load64 (m + 8 * i)
    store64 (c + 8 * i) (d ^^^ fromWord s.x0)
    pure s) s
  encTail D s (m + 8 * (mlen / 8)) (mlen % 8) (c + 8 * (mlen / 8))

/-- The implementation with the tables `T`.  `isapa128v20/opt_32/isap.c` lines 65-236, `opt_32_armv67m/isap.c` lines 96-267. -/
def implAt : Impl where
  enc := isapEncAt D T
  mac := isapMacAt D T
  tagAlign := 8

end A128.Opt32

namespace A128.Avx
open Opt64 (u64big)
variable (d : DataModel) (T : Tables)

/-- The first part of `isap_mac_enc`, `isapa128av20/avx_512/isap.c` lines 374-433 -/
def startAt (k npub ad : Ptr) (adlen : Nat) : CM Two := do
  let t ← Opt64.isapRkAt (cfg d) k T.ke (.ext npub) ⟨0, 0, 0, 0, 0⟩ 24
  let n0 ← load64 (npub + 0)
  let n1 ← load64 (npub + 8)
  let n0' ← load64 (npub + 0)
  let n1' ← load64 (npub + 8)
  let w ← load64 (T.a + 0)
  let s := Opt64.p12 ⟨u64big n0', u64big n1', u64big w, 0, 0⟩
  let s ← Opt64.absorbLanes Opt64.p12 d s ad adlen
  pure ⟨⟨u64big t.x0, u64big t.x1, u64big t.x2, u64big n0, u64big n1⟩, s⟩

/-- `isap_mac_enc`, lines 359-554 -/
def isapMacEncAt (k npub ad : Ptr) (adlen : Nat) (c m : Ptr) (mlen : Nat) : CM (List Byte) := do
  let x ← startAt d T k npub ad adlen
  let v ← doWhile (body d m c mlen) (i64 mlen) ⟨x, 0, 0, i64 mlen, 1⟩
  let s ← macRest d c v.remMac v.idxMac v.x.hi
  let t : Opt.State := ⟨u64big s.x0, u64big s.x1, u64big s.x2, u64big s.x3, u64big s.x4⟩
  let t ← Opt64.isapRkAt (cfg d) k T.ka (.loc (toLe64 t.x0 ++ toLe64 t.x1)) t 16
  let s := Opt64.p12 ⟨u64big t.x0, u64big t.x1, u64big t.x2, u64big t.x3, u64big t.x4⟩
  pure (toLe64 (u64big s.x0) ++ toLe64 (u64big s.x1))

/-- `isapa128av20/avx_512/crypto_aead.c` -/
def aeadAt : Aead where
  encrypt a := do
    storeLen a.clen (a.mlen + 16)
    let tag ← isapMacEncAt d T a.k a.npub a.ad a.adlen a.c a.m a.mlen
    storeTag 8 (a.c + a.mlen) tag
    pure 0
  decrypt := (Opt64.implAt (cfg d) T).aead.decrypt

end A128.Avx

namespace Target

/-- The functions `crypto_aead_encrypt`, `crypto_aead_decrypt` with the constant tables at the addresses `T`.
`crypto_aead.c` lines 5-61. -/
def aeadAt (T : Tables) : Target → Aead
  | a128aOpt64 => (Opt.implAt Opt.Opt64.prims T).aead
  | a128aOpt32 => (Opt.implAt Opt.Opt32.prims T).aead
  | a128aOpt32Compact => (Opt.implAt Opt.Opt32.primsCompact T).aead
  | a128aOpt32Tiny => (Opt.implAt Opt.Opt32.primsTiny T).aead
  | a128aOpt32Stp => Opt.Stp.aeadAt Opt.Opt32.primsStp T
  | a128aOpt8 => (Opt.implAt Opt.Opt8.prims T).aead
  | a128aOpt8Tiny => (Opt.implAt Opt.Opt8.primsTiny T).aead
  | a128aBi8 => (Opt.implAt Opt.Bi8.prims T).aead
  | a128aBi32 => (Opt.implAt Opt.Bi32.prims T).aead
  | a128aBi32Compact => (Opt.implAt Opt.Bi32.primsCompact T).aead
  | a128aBi32Stp => Opt.Stp.aeadAt Opt.Bi32.primsStp T
  | a128aBi32Armv6 => (Opt.implAt Opt.Armv6.prims T).aead
  | a128aBi32Armv6m => (Opt.implAt Opt.Armv6m.prims T).aead
  | a128aBi32Armv6mCompact => (Opt.implAt Opt.Armv6m.primsCompact T).aead
  | a128aBi32Armv6mStp => Opt.Stp.aeadAt Opt.Armv6m.primsStp T
  | a128aBi32Armv7m => (Opt.implAt Opt.Armv7m.prims T).aead
  | a128aAvx512 d => A128.Avx.aeadAt d T
  | a128Opt64 d => (A128.Opt64.implAt (A128.Opt64.cfg d) T).aead
  | a128Opt32 => (A128.Opt32.implAt A128.Opt32.prims T).aead
  | a128Opt32Armv67m => (A128.Opt32.implAt A128.Opt32.primsArm T).aead
  | t => t.aead

/-- Does it read the tables by words?.  `*(lane_t *)(iv + 0)` in `isapa128av20/opt_64/isap.c` line 60, against
`KeccakP400_AddBytes(state, iv, ...)` or `iv[i]`. -/
def tablesByWords : Target → Bool
  | ref _ | x _ | k128aOpt64 | k128Opt64 | k128aAvx512 _ | k128aOpt32Armv6m | k128aOpt32Armv7m | k128Opt32Armv6m
  | k128Opt32Armv7m => false
  | _ => true

/-- `crypto_hash` with `ASCON_HASH_IV` at `iv`, for the implementations that have it.  `isapa128av20/opt_64/isap.c` lines
195-224. -/
def hashAt (t : Target) (iv : Ptr) : Option (Ptr → Ptr → Nat → CM Int) := t.hashPrims.map fun D => Opt.cryptoHashAt D iv

end Target
end Model
