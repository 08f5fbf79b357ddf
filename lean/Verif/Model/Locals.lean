import Verif.Model.Targets
/-!
# Uninitialised local variables

The local variable `state` of `isap_enc` is declared without initialiser and passed to `isap_rk`, which sets all of it but the
last 16 bytes.  In `Model/RefMode.lean`, `Model/OptMode.lean`, `Model/A128.lean` and `Model/A128aAvx.lean` it is initially zero;
here it has any contents.  (The corresponding variable of `isapk128av20/avx512` has any contents already in `Model/K128.lean`;
the other implementations set all of it by the time it is used first.)
-/

namespace Model
open C

/-- What the memory of uninitialised local variables contains.  The variables are those of the functions `isap_enc` and
`isap_mac_enc` below, each cited there with its lines in `isap.c`. -/
structure Locals where
  /-- the last 16 bytes of `state` in the reference code -/
  bytes : Fin 16 → Byte
  /-- `state` in the optimized versions of ISAP-A-128a and ISAP-A-128 -/
  words : Opt.State

/-- `isap_enc`: `ref/isap.c` lines 124-147 -/
def Ref.isapEncFrom (u : Locals) (G : Cfg) (k npub m : Ptr) (mlen : Nat) (c : Ptr) : CM Unit := do
  let key ← isapRk G k (G.iv 3) (.ext npub) 16 (G.stateSz - 16)
  let state := key ++ List.ofFn u.bytes
  let state ← overwriteBytes G state (.ext npub) (G.stateSz - 16) 16
  let _ ← forN mlen 0 (fun i x => do
    let x ← refill G G.sE x.1 x.2
    let ks ← extractBytes G x.1 (i % G.rHsz) 1
    let d ← load8 (m + i)
    store8 (c + i) (d ^^^ ks.getD 0 0)
    pure (x.1, x.2 - 1)) (state, 0)
  pure ()

/-- `isap_enc`: `isapa128av20/opt_64/isap.c` lines 149-187 -/
def Opt.isapEncFrom (u : Locals) (D : Prims) (k npub m : Ptr) (mlen : Nat) (c : Ptr) : CM Unit := do
  let s ← isapRk D k (iv 3) (.ext npub) u.words 24
  let n0 ← load64 (npub + 0)
  let n1 ← load64 (npub + 8)
  let s := { s with x3 := D.toWord n0, x4 := D.toWord n1 }
  let s ← whileGe 8 (by decide) mlen 0 (fun i (s : State) => do
    let s ← D.pE s
    let t0 := D.fromWord s.x0
    let d ← load64 (m + 8 * i)
    store64 (c + 8 * i) (d ^^^ t0)
    pure s) s
  encTail D s (m + 8 * (mlen / 8)) (mlen % 8) (c + 8 * (mlen / 8))

/-- `isap_enc`: `isapa128v20/opt_64/isap.c` lines 248-299 -/
def A128.Opt64.isapEncFrom (u : Locals) (D : Cfg) (k npub m : Ptr) (mlen : Nat) (c : Ptr) : CM Unit := do
  let t ← isapRk D k (D.iv 3) (.ext npub) u.words 24
  let n0 ← load64 (npub + 0)
  let n1 ← load64 (npub + 8)
  let s := D.pE ⟨u64big t.x0, u64big t.x1, u64big t.x2, u64big n0, u64big n1⟩
  let _ ← whileRem 8 (by decide) mlen 0
    (fun i (s : Opt.State) => do
      let d ← load64 (m + 8 * (i % D.dm.ulong))
      store64 (c + 8 * (i % D.dm.ulong)) (u64big s.x0 ^^^ d)
      pure (D.pE s))
    (fun i s => do
      let d ← load64 (m + 8 * (i % D.dm.ulong))
      store64 (c + 8 * (i % D.dm.ulong)) (u64big s.x0 ^^^ d)
      pure s)
    (fun i rem s => do
      let lane := toLe64 (u64big s.x0)
      forN rem 0 (fun j (_ : Unit) => do
        let d ← load8 (m + 8 * i % D.dm.ulong + j)
        store8 (c + 8 * i % D.dm.ulong + j) (lane.getD j 0 ^^^ d)) ()
      pure s) s
  pure ()

/-- The first part of `isap_mac_enc`: `isapa128av20/avx_512/isap.c` lines 374-433 -/
def A128.Avx.startFrom (u : Locals) (d : DataModel) (k npub ad : Ptr) (adlen : Nat) : CM Two := do
  let t ← Opt64.isapRk (cfg d) k (iv 3) (.ext npub) u.words 24
  let n0 ← load64 (npub + 0)
  let n1 ← load64 (npub + 8)
  let n0' ← load64 (npub + 0)
  let n1' ← load64 (npub + 8)
  let s := Opt64.p12 ⟨Opt64.u64big n0', Opt64.u64big n1', Opt64.u64big (le64 (iv 1)), 0, 0⟩
  let s ← Opt64.absorbLanes Opt64.p12 d s ad adlen
  pure ⟨⟨Opt64.u64big t.x0, Opt64.u64big t.x1, Opt64.u64big t.x2, Opt64.u64big n0, Opt64.u64big n1⟩, s⟩

/-- `isap_mac_enc`: `isapa128av20/avx_512/isap.c` lines 359-554 -/
def A128.Avx.isapMacEncFrom (u : Locals) (d : DataModel) (k npub ad : Ptr) (adlen : Nat) (c m : Ptr) (mlen : Nat) :
    CM (List Byte) := do
  let x ← startFrom u d k npub ad adlen
  let v ← doWhile (body d m c mlen) (i64 mlen) ⟨x, 0, 0, i64 mlen, 1⟩
  let s ← macRest d c v.remMac v.idxMac v.x.hi
  let t : Opt.State := ⟨Opt64.u64big s.x0, Opt64.u64big s.x1, Opt64.u64big s.x2, Opt64.u64big s.x3, Opt64.u64big s.x4⟩
  let t ← Opt64.isapRk (cfg d) k (iv 2) (.loc (toLe64 t.x0 ++ toLe64 t.x1)) t 16
  let s := Opt64.p12 ⟨Opt64.u64big t.x0, Opt64.u64big t.x1, Opt64.u64big t.x2, Opt64.u64big t.x3, Opt64.u64big t.x4⟩
  pure (toLe64 (Opt64.u64big s.x0) ++ toLe64 (Opt64.u64big s.x1))

/-- The reference code: `ref/isap.c` lines 50-147 -/
def Ref.implFrom (u : Locals) (G : Cfg) : Impl := { Ref.impl G with enc := isapEncFrom u G }
/-- The optimized versions of ISAP-A-128a: `isapa128av20/opt_64/isap.c` lines 105-187 -/
def Opt.implFrom (u : Locals) (D : Prims) : Impl := { Opt.impl D with enc := isapEncFrom u D }
/-- `isapa128v20/opt_64` and the functions of `isapa128av20/avx_512` shared with it: `isap.c` lines 194-299 -/
def A128.Opt64.implFrom (u : Locals) (D : Cfg) : Impl := { A128.Opt64.impl D with enc := isapEncFrom u D }

/-- The stp variants: `bi_32_stp/crypto_aead.c`; as `Opt.Stp.aead` -/
def Opt.Stp.aeadFrom (u : Locals) (D : StpPrims) : Aead where
  encrypt := Impl.aead { Opt.Stp.impl D with enc := isapEncFrom u D.toPrims } |>.encrypt
  decrypt a := do
    storeLen a.mlen (a.clen + (2 ^ 64 - 16))
    let l ← loadLen a.mlen
    let T ← isapMac D a.k a.npub a.ad a.adlen a.c l
    let Tstar ← forN 16 0 (fun i (t : List Byte) => do
      let l ← loadLen a.mlen
      let b ← load8 (a.c + (l + i))
      pure (t ++ [b])) []
    let eqCnt ← pvp D T Tstar
    let ok ← branch (eqCnt = 16)
    if ok then
      let l ← loadLen a.mlen
      ifThen (l > 0) do
        let l ← loadLen a.mlen
        isapEncFrom u D.toPrims a.k a.npub a.c l a.m
      pure 0
    else
      pure (-1)

/-- `isapa128av20/avx_512`: `crypto_aead.c` -/
def A128.Avx.aeadFrom (u : Locals) (d : DataModel) : Aead where
  encrypt a := do
    storeLen a.clen (a.mlen + 16)
    let tag ← isapMacEncFrom u d a.k a.npub a.ad a.adlen a.c a.m a.mlen
    storeTag 8 (a.c + a.mlen) tag
    pure 0
  decrypt a := Model.decrypt (Opt64.implFrom u (cfg d)) a.m a.mlen a.nsec a.c a.clen a.ad a.adlen a.npub a.k

/-- The functions `crypto_aead_encrypt`, `crypto_aead_decrypt` when the memory of uninitialised local variables contains
`u`.  `crypto_aead.c` lines 5-61. -/
def Target.aeadFrom (u : Locals) : Target → Aead
  | ref p => (Ref.implFrom u p.cfg).aead
  | x p => (Ref.implFrom u p.cfg).aead
  | a128aOpt64 => (Opt.implFrom u Opt.Opt64.prims).aead
  | a128aOpt32 => (Opt.implFrom u Opt.Opt32.prims).aead
  | a128aOpt32Compact => (Opt.implFrom u Opt.Opt32.primsCompact).aead
  | a128aOpt32Tiny => (Opt.implFrom u Opt.Opt32.primsTiny).aead
  | a128aOpt32Stp => Opt.Stp.aeadFrom u Opt.Opt32.primsStp
  | a128aOpt8 => (Opt.implFrom u Opt.Opt8.prims).aead
  | a128aOpt8Tiny => (Opt.implFrom u Opt.Opt8.primsTiny).aead
  | a128aBi8 => (Opt.implFrom u Opt.Bi8.prims).aead
  | a128aBi32 => (Opt.implFrom u Opt.Bi32.prims).aead
  | a128aBi32Compact => (Opt.implFrom u Opt.Bi32.primsCompact).aead
  | a128aBi32Stp => Opt.Stp.aeadFrom u Opt.Bi32.primsStp
  | a128aBi32Armv6 => (Opt.implFrom u Opt.Armv6.prims).aead
  | a128aBi32Armv6m => (Opt.implFrom u Opt.Armv6m.prims).aead
  | a128aBi32Armv6mCompact => (Opt.implFrom u Opt.Armv6m.primsCompact).aead
  | a128aBi32Armv6mStp => Opt.Stp.aeadFrom u Opt.Armv6m.primsStp
  | a128aBi32Armv7m => (Opt.implFrom u Opt.Armv7m.prims).aead
  | a128aAvx512 d => A128.Avx.aeadFrom u d
  | a128Opt64 d => (A128.Opt64.implFrom u (A128.Opt64.cfg d)).aead
  | a128Opt32 => (A128.Opt32.impl A128.Opt32.prims).aead
  | a128Opt32Armv67m => (A128.Opt32.impl A128.Opt32.primsArm).aead
  | k128aOpt64 => (K128.impl K128.Opt64.primsK128a).aead
  | k128Opt64 => (K128.impl K128.Opt64.primsK128).aead
  | k128aAvx512 j => (K128.impl (K128.Avx.prims j)).aead
  | k128aOpt32Armv6m => (K128.Arm.impl K128.Arm.primsK128aV6).aead
  | k128aOpt32Armv7m => (K128.Arm.impl K128.Arm.primsK128aV7).aead
  | k128Opt32Armv6m => (K128.Arm.impl K128.Arm.primsK128V6).aead
  | k128Opt32Armv7m => (K128.Arm.impl K128.Arm.primsK128V7).aead

end Model
