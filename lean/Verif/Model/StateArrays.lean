import Verif.Model.Targets
/-!
# The arrays `state` of `isapa128v20/opt_64` and `ke` of `isapa128v20/opt_32`

`isap_mac` and `isap_enc` of `isapa128v20/opt_64/isap.c` declare `u8 state[ISAP_STATE_SZ]` and access it through the pointer
`u64 *state64`.  In `Model/A128.lean` its contents are values without address; here the array is an object in memory.  The same text is
in `isapa128av20/avx_512/isap.c` lines 199-352, which `crypto_aead_decrypt` calls there.  `isap_enc` of `opt_32` and `opt_32_armv67m`
declares `u8 ke[24]` and accesses it by 32-bit words.
-/

namespace Model.A128.Opt64
open C
open Opt (State)

variable (D : Cfg)

/-- `isap_rk`, `isapa128v20/opt_64/isap.c` lines 148-188, for `ylen` = 16, with `out64` at `out`. -/
def isapRkTo (k : Ptr) (iv : List Byte) (y : Src) (out : Ptr) (outlen : Nat) : CM Unit := do
  let k0 ← load64 (k + 0)
  let k1 ← load64 (k + 8)
  let s := D.pH ⟨u64big k0, u64big k1, u64big (le64 iv), 0, 0⟩
  let s ← forN 127 0 (fun i (s : State) => do
    let yb ← y.get (i / 8)
    pure (D.pB { s with x0 := s.x0 ^^^ ((yBit yb i).setWidth 64 <<< 56) })) s
  let yb ← y.get 15
  let s := D.pH { s with x0 := s.x0 ^^^ (((yb &&& 1) <<< 7).setWidth 64 <<< 56) }
  store64 (out + 0) (u64big s.x0)
  store64 (out + 8) (u64big s.x1)
  ifThen (outlen = 24) (store64 (out + 16) (u64big s.x2))

/-- `isap_mac`, lines 194-242, with `state` (line 201) at `st`: the argument `y` and the argument `out` of `isap_rk`. -/
def isapMacIn (st k npub ad : Ptr) (adlen : Nat) (c : Ptr) (clen : Nat) : CM (List Byte) := do
  let s ← macAbsorb D npub ad adlen c clen
  store64 (st + 0) (u64big s.x0)
  store64 (st + 8) (u64big s.x1)
  store64 (st + 16) (u64big s.x2)
  store64 (st + 24) (u64big s.x3)
  store64 (st + 32) (u64big s.x4)
  isapRkTo D k (D.iv 2) (.ext st) st 16
  let t0 ← load64 (st + 0)
  let t1 ← load64 (st + 8)
  let t2 ← load64 (st + 16)
  let t3 ← load64 (st + 24)
  let t4 ← load64 (st + 32)
  let s := D.pH ⟨u64big t0, u64big t1, u64big t2, u64big t3, u64big t4⟩
  pure (toLe64 (u64big s.x0) ++ toLe64 (u64big s.x1))

/-- `isap_enc`, lines 264-298: `t` are the words `state64[0..2]`. -/
def encRest (npub m : Ptr) (mlen : Nat) (c : Ptr) (t : State) : CM Unit := do
  let n0 ← load64 (npub + 0)
  let n1 ← load64 (npub + 8)
  let s := D.pE ⟨u64big t.x0, u64big t.x1, u64big t.x2, u64big n0, u64big n1⟩
  let _ ← whileRem 8 (by decide) mlen 0
    (fun i (s : State) => do
      let d ← load64 (m + 8 * (i % D.dm.ulong))
      store64 (c + 8 * (i % D.dm.ulong)) (u64big s.x0 ^^^ d)
      pure (D.pE s))
    (fun i s => do
      let d ← load64 (m + 8 * (i % D.dm.ulong))
      store64 (c + 8 * (i % D.dm.ulong)) (u64big s.x0 ^^^ d)
      pure s)
    (fun i rem s => do
      let lane := toLe64 (u64big s.x0)
      forN rem 0 (fun j (_ : Unit) => do
        let d ← load8 (m + 8 * i % D.dm.ulong + j)
        store8 (c + 8 * i % D.dm.ulong + j) (lane.getD j 0 ^^^ d)) ()
      pure s) s
  pure ()

/-- `isap_enc`, lines 248-299, with `state` (line 255) at `st`. -/
def isapEncIn (st k npub m : Ptr) (mlen : Nat) (c : Ptr) : CM Unit := do
  isapRkTo D k (D.iv 3) (.ext npub) st 24
  let t0 ← load64 (st + 0)
  let t1 ← load64 (st + 8)
  let t2 ← load64 (st + 16)
  encRest D npub m mlen c ⟨t0, t1, t2, 0, 0⟩

/-- `isap.c` with the array of `isap_enc` at `u` and that of `isap_mac` at `v`.  (The functions do not call each other, so both
may be at the same place.)  `isapa128v20/opt_64/isap.c` lines 194-299. -/
def implIn (u v : Ptr) : Impl where
  enc := isapEncIn D u
  mac := isapMacIn D v
  tagAlign := 8

end Model.A128.Opt64

namespace Model.A128.Opt32
open C
open Opt (State)

/-- `*(u32 *)p`, little-endian.  `isapa128v20/opt_32/isap.c` lines 202-207. -/
def load32 (p : Ptr) : CM (BitVec 32) := do
  let bs ← load 4 4 p
  pure ((le64 bs).setWidth 32)

/-- `*(u32 *)p = x`, little-endian.  `isapa128v20/opt_32/isap.c` lines 51-58. -/
def store32 (p : Ptr) (x : BitVec 32) : CM Unit := store 4 p ((toLe64 (x.setWidth 64)).take 4)

variable (D : Prims)

/-- `isap_rk` with `out` in memory: `isapa128v20/opt_32/isap.c` lines 18-59, `isapa128v20/opt_32_armv67m/isap.c` lines 21-90. -/
def isapRkTo (k : Ptr) (iv : List Byte) (y : Src) (out : Ptr) (outlen : Nat) : CM Unit := do
  let k0 ← load64 (k + 0)
  let k1 ← load64 (k + 8)
  let s ← D.pL ⟨toWord k0, toWord k1, toWord (le64 iv), 0, 0⟩
  let s ← forN 127 0 (fun i (s : State) => do
    let yb ← y.get (i / 8)
    D.pU (xorO s ((yBit yb i).setWidth 32 <<< 24))) s
  let yb ← y.get 15
  let s ← D.pL (xorO s (((yb &&& 1) <<< 7).setWidth 32 <<< 24))
  store32 (out + 0) (Opt.Bi32.w1 s.x0)
  store32 (out + 4) (Opt.Bi32.w0 s.x0)
  store32 (out + 8) (Opt.Bi32.w1 s.x1)
  store32 (out + 12) (Opt.Bi32.w0 s.x1)
  ifThen (outlen > 16) do
    store32 (out + 16) (Opt.Bi32.w1 s.x2)
    store32 (out + 20) (Opt.Bi32.w0 s.x2)

/-- `isap_enc` from the initialisation of the state, `opt_32/isap.c` lines 197-235, `opt_32_armv67m/isap.c` lines 228-266; `ke` are
the words read from the array. -/
def encRest (npub m : Ptr) (mlen : Nat) (c : Ptr) (ke : List (BitVec 32)) : CM Unit := do
  let n0 ← load64 (npub + 0)
  let n1 ← load64 (npub + 8)
  let s : State := ⟨Opt.Bi32.lane (ke.getD 1 0) (ke.getD 0 0), Opt.Bi32.lane (ke.getD 3 0) (ke.getD 2 0),
    Opt.Bi32.lane (ke.getD 5 0) (ke.getD 4 0), toWord n0, toWord n1⟩
  let s ← whileGe 8 (by decide) mlen 0 (fun i (s : State) => do
    let s ← D.pU s
    let d ← load64 (m + 8 * i)
    store64 (c + 8 * i) (d ^^^ fromWord s.x0)
    pure s) s
  encTail D s (m + 8 * (mlen / 8)) (mlen % 8) (c + 8 * (mlen / 8))

/-- `isap_enc` with `ke` (`opt_32/isap.c` line 194, `opt_32_armv67m/isap.c` line 225) at `p`: `opt_32/isap.c` lines 187-236,
`opt_32_armv67m/isap.c` lines 218-267. -/
def isapEncIn (p k npub m : Ptr) (mlen : Nat) (c : Ptr) : CM Unit := do
  isapRkTo D k (iv 3) (.ext npub) p 24
  let w0 ← load32 (p + 0)
  let w1 ← load32 (p + 4)
  let w2 ← load32 (p + 8)
  let w3 ← load32 (p + 12)
  let w4 ← load32 (p + 16)
  let w5 ← load32 (p + 20)
  encRest D npub m mlen c [w0, w1, w2, w3, w4, w5]

/-- `isap.c` with the array `ke` of `isap_enc` at `p`: `opt_32/isap.c` lines 65-236, `opt_32_armv67m/isap.c` lines 96-267. -/
def implIn (p : Ptr) : Impl where
  enc := isapEncIn D p
  mac := isapMac D
  tagAlign := 8

end Model.A128.Opt32

namespace Model
open C

/-- `p[0..n)` can be a local array of a call of `crypto_aead_encrypt`: memory that the caller does not use.
`isapa128v20/opt_64/isap.c` lines 201, 255; `isapa128v20/opt_32/isap.c` line 194. -/
structure StateArray (e : Env) (a : EncArgs) (n : Nat) (p : Ptr) : Prop where
  wr : Writable e p n
  k : Disjoint p n a.k 16
  npub : Disjoint p n a.npub 16
  ad : Disjoint p n a.ad a.adlen
  m : Disjoint p n a.m a.mlen
  c : Disjoint p n a.c (a.mlen + 16)
  clen : Disjoint p n a.clen 8

/-- The same for `crypto_aead_decrypt`.  `isapa128v20/opt_64/isap.c` lines 201, 255; `isapa128av20/avx_512/isap.c` lines 252, 308;
`isapa128v20/opt_32/isap.c` line 194. -/
structure StateArrayDec (e : Env) (a : DecArgs) (n : Nat) (p : Ptr) : Prop where
  wr : Writable e p n
  k : Disjoint p n a.k 16
  npub : Disjoint p n a.npub 16
  ad : Disjoint p n a.ad a.adlen
  c : Disjoint p n a.c a.clen
  m : Disjoint p n a.m (a.clen - 16)
  mlen : Disjoint p n a.mlen 8

/-- The memories are the same except for `u[0..n)` and `v[0..n)`.  No counterpart in `/repo`: used to state that the caller sees
no difference. -/
def SameExcept (n : Nat) (u v : Ptr) (s s' : St) : Prop :=
  ∀ b o, ¬ InBuf u n b o → ¬ InBuf v n b o → s.mem b o = s'.mem b o

end Model
