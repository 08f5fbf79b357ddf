import Verif.Model.Targets
/-!
# The local arrays of `crypto_aead_decrypt`

In `Model/Api.lean` and `Model/Stp.lean` the array `tag` (`T` and `T_star` in the stp variants) is a value without address.  Here it
is an object in memory: `isap_mac` stores to it and the comparison reads from it.
-/

namespace Model
open C

/-- `p[0..16)` can be a local array of the call: it is memory that the caller does not use.  The arrays are those of
`crypto_aead.c` line 43 and `bi_32_stp/crypto_aead.c` lines 44, 48. -/
structure LocalArray (e : Env) (a : DecArgs) (p : Ptr) : Prop where
  wr : Writable e p 16
  k : Disjoint p 16 a.k 16
  npub : Disjoint p 16 a.npub 16
  ad : Disjoint p 16 a.ad a.adlen
  c : Disjoint p 16 a.c a.clen
  m : Disjoint p 16 a.m (a.clen - 16)
  mlen : Disjoint p 16 a.mlen 8

/-- The memories are the same except for `u[0..16)` and `v[0..16)`.  No counterpart in `/repo`: used to state that the
caller sees no difference. -/
def SameOff (u v : Ptr) (s s' : St) : Prop :=
  ∀ b o, ¬ InBuf u 16 b o → ¬ InBuf v 16 b o → s.mem b o = s'.mem b o

/-- `crypto_aead_decrypt`, `crypto_aead/isapa128av20/opt_64/crypto_aead.c` lines 29-61 (same text in the other directories) with
`unsigned char tag[ISAP_TAG_SZ]` (line 43) at `tag`.  `isap_mac` stores to it by words of `I.tagAlign` bytes, as in
`crypto_aead_encrypt`; lines 48-50 read it byte by byte. -/
def Impl.decryptAt (I : Impl) (tag : Ptr) (a : DecArgs) : CM Int := do
  storeLen a.mlen (a.clen + (2 ^ 64 - 16))
  let l ← loadLen a.mlen
  let t ← I.mac a.k a.npub a.ad a.adlen a.c l
  storeTag I.tagAlign tag t
  let eqCnt ← forN 16 0 (fun i (cnt : Nat) => do
    let x ← load8 (tag + i)
    let l ← loadLen a.mlen
    let b ← load8 (a.c + (l + i))
    pure (cnt + if x = b then 1 else 0)) 0
  let ok ← branch (eqCnt = 16)
  if ok then
    let l ← loadLen a.mlen
    ifThen (l > 0) do
      let l ← loadLen a.mlen
      I.enc a.k a.npub a.c l a.m
    pure 0
  else
    pure (-1)

namespace Opt.Stp
variable (D : StpPrims)

/-- One half of `pvp`, `bi_32_stp/isap.c` lines 163-169 and 174-180, for the array at `T`: it is read as two words. -/
def pvpHalfAt (T : Ptr) : CM State := do
  let t0 ← load64 (T + 0)
  let t1 ← load64 (T + 8)
  let s0 ← getg .s0
  let s1 ← getg .s1
  D.pPVP ⟨D.toWord t0, D.toWord t1, s0, s1, 0⟩

/-- `pvp`, `bi_32_stp/isap.c` lines 157-193: number of equal bytes. -/
def pvpAt (T Tstar : Ptr) : CM Nat := do
  let u ← pvpHalfAt D T
  let s ← pvpHalfAt D Tstar
  let cnt ← forN 8 0 (fun i (cnt : Nat) => pure (cnt + if byteOf s.x0 i = byteOf u.x0 i then 1 else 0)) 0
  forN 8 0 (fun i (cnt : Nat) => pure (cnt + if byteOf s.x1 i = byteOf u.x1 i then 1 else 0)) cnt

/-- `crypto_aead_decrypt`, `bi_32_stp/crypto_aead.c` lines 30-68 with `unsigned char T[16]` (line 44) at `T` and
`unsigned char T_star[16]` (line 48) at `Tstar`.  `isap_mac` stores to `T` by `memcpy`. -/
def decryptAt (T Tstar : Ptr) (a : DecArgs) : CM Int := do
  storeLen a.mlen (a.clen + (2 ^ 64 - 16))
  let l ← loadLen a.mlen
  let t ← isapMac D a.k a.npub a.ad a.adlen a.c l
  storeTag 1 T t
  forN 16 0 (fun i (_ : Unit) => do
    let l ← loadLen a.mlen
    let b ← load8 (a.c + (l + i))
    store8 (Tstar + i) b) ()
  let eqCnt ← pvpAt D T Tstar
  let ok ← branch (eqCnt = 16)
  if ok then
    let l ← loadLen a.mlen
    ifThen (l > 0) do
      let l ← loadLen a.mlen
      isapEnc D.toPrims a.k a.npub a.c l a.m
    pure 0
  else
    pure (-1)

end Opt.Stp

namespace Target

/-- `crypto_aead_decrypt` with its local array `tag` (or `T`) at `u` and, in the stp variants, `T_star` at `v`.
`crypto_aead.c` lines 29-61, `bi_32_stp/crypto_aead.c` lines 30-68. -/
def decryptAt (u v : Ptr) : Target → DecArgs → CM Int
  | ref p => (Ref.impl p.cfg).decryptAt u
  | x p => (Ref.impl p.cfg).decryptAt u
  | a128aOpt64 => (Opt.impl Opt.Opt64.prims).decryptAt u
  | a128aOpt32 => (Opt.impl Opt.Opt32.prims).decryptAt u
  | a128aOpt32Compact => (Opt.impl Opt.Opt32.primsCompact).decryptAt u
  | a128aOpt32Tiny => (Opt.impl Opt.Opt32.primsTiny).decryptAt u
  | a128aOpt32Stp => Opt.Stp.decryptAt Opt.Opt32.primsStp u v
  | a128aOpt8 => (Opt.impl Opt.Opt8.prims).decryptAt u
  | a128aOpt8Tiny => (Opt.impl Opt.Opt8.primsTiny).decryptAt u
  | a128aBi8 => (Opt.impl Opt.Bi8.prims).decryptAt u
  | a128aBi32 => (Opt.impl Opt.Bi32.prims).decryptAt u
  | a128aBi32Compact => (Opt.impl Opt.Bi32.primsCompact).decryptAt u
  | a128aBi32Stp => Opt.Stp.decryptAt Opt.Bi32.primsStp u v
  | a128aBi32Armv6 => (Opt.impl Opt.Armv6.prims).decryptAt u
  | a128aBi32Armv6m => (Opt.impl Opt.Armv6m.prims).decryptAt u
  | a128aBi32Armv6mCompact => (Opt.impl Opt.Armv6m.primsCompact).decryptAt u
  | a128aBi32Armv6mStp => Opt.Stp.decryptAt Opt.Armv6m.primsStp u v
  | a128aBi32Armv7m => (Opt.impl Opt.Armv7m.prims).decryptAt u
  | a128aAvx512 d => (A128.Avx.impl d).decryptAt u
  | a128Opt64 d => (A128.Opt64.impl (A128.Opt64.cfg d)).decryptAt u
  | a128Opt32 => (A128.Opt32.impl A128.Opt32.prims).decryptAt u
  | a128Opt32Armv67m => (A128.Opt32.impl A128.Opt32.primsArm).decryptAt u
  | k128aOpt64 => (K128.impl K128.Opt64.primsK128a).decryptAt u
  | k128Opt64 => (K128.impl K128.Opt64.primsK128).decryptAt u
  | k128aAvx512 j => (K128.impl (K128.Avx.prims j)).decryptAt u
  | k128aOpt32Armv6m => (K128.Arm.impl K128.Arm.primsK128aV6).decryptAt u
  | k128aOpt32Armv7m => (K128.Arm.impl K128.Arm.primsK128aV7).decryptAt u
  | k128Opt32Armv6m => (K128.Arm.impl K128.Arm.primsK128V6).decryptAt u
  | k128Opt32Armv7m => (K128.Arm.impl K128.Arm.primsK128V7).decryptAt u

/-- Alignment of the local arrays under which decryption works: that of the stores of `isap_mac`, or that of the reads in
`pvp`.  No counterpart in `/repo`: alignment is chosen by the compiler; see `crypto_aead.c` line 43,
`bi_32_stp/crypto_aead.c` lines 44, 48. -/
def localAlign : Target → Nat
  | a128aOpt32Stp | a128aBi32Stp | a128aBi32Armv6mStp | a128aAvx512 _ | a128Opt64 _ | a128Opt32 | a128Opt32Armv67m => 8
  | k128aOpt64 | k128Opt64 => 2
  | _ => 1

end Target
end Model
