import Verif.Model.StateArrays
/-!
# The arrays `state_mac` and `state_enc` of `isapa128av20/avx_512`

`isap_mac_enc` declares two arrays `u8 …[ISAP_STATE_SZ]` and accesses them through pointers to `u64`.  In `Model/A128aAvx.lean` their
contents are values without address; here they are objects in memory.
-/

namespace Model.A128.Avx
open C
open Opt (State)
open Opt64 (u64big p12 isapRkTo absorbLanes)

/-- The first part of `isap_mac_enc`, `isapa128av20/avx_512/isap.c` lines 374-433, with `state_enc` (line 376) at `se`. -/
def startIn (d : DataModel) (se k npub ad : Ptr) (adlen : Nat) : CM Two := do
  isapRkTo (cfg d) k (iv 3) (.ext npub) se 24
  let n0 ← load64 (npub + 0)
  store64 (se + 24) n0
  let n1 ← load64 (npub + 8)
  store64 (se + 32) n1
  let n0' ← load64 (npub + 0)
  let n1' ← load64 (npub + 8)
  let s := p12 ⟨u64big n0', u64big n1', u64big (le64 (iv 1)), 0, 0⟩
  let s ← absorbLanes p12 d s ad adlen
  let t0 ← load64 (se + 0)
  let t1 ← load64 (se + 8)
  let t2 ← load64 (se + 16)
  let t3 ← load64 (se + 24)
  let t4 ← load64 (se + 32)
  pure ⟨⟨u64big t0, u64big t1, u64big t2, u64big t3, u64big t4⟩, s⟩

/-- The last part of `isap_mac_enc`, `isapa128av20/avx_512/isap.c` lines 536-553, with `state_mac` (line 367) at `st`; it is both the
argument `y` and the argument `out` of `isap_rk`. -/
def finishIn (d : DataModel) (st k : Ptr) (s : State) : CM (List Byte) := do
  store64 (st + 0) (u64big s.x0)
  store64 (st + 8) (u64big s.x1)
  store64 (st + 16) (u64big s.x2)
  store64 (st + 24) (u64big s.x3)
  store64 (st + 32) (u64big s.x4)
  isapRkTo (cfg d) k (iv 2) (.ext st) st 16
  let t0 ← load64 (st + 0)
  let t1 ← load64 (st + 8)
  let t2 ← load64 (st + 16)
  let t3 ← load64 (st + 24)
  let t4 ← load64 (st + 32)
  let s := p12 ⟨u64big t0, u64big t1, u64big t2, u64big t3, u64big t4⟩
  pure (toLe64 (u64big s.x0) ++ toLe64 (u64big s.x1))

/-- `isap_mac_enc`, `isapa128av20/avx_512/isap.c` lines 359-554, with `state_enc` at `se` and `state_mac` at `sm`. -/
def isapMacEncIn (d : DataModel) (se sm k npub ad : Ptr) (adlen : Nat) (c m : Ptr) (mlen : Nat) : CM (List Byte) := do
  let x ← startIn d se k npub ad adlen
  let v ← doWhile (body d m c mlen) (i64 mlen) ⟨x, 0, 0, i64 mlen, 1⟩
  let s ← macRest d c v.remMac v.idxMac v.x.hi
  finishIn d sm k s

/-- `crypto_aead_encrypt`, `isapa128av20/avx_512/crypto_aead.c` lines 5-22, with the arrays at `se` and `sm`. -/
def encryptIn (d : DataModel) (se sm : Ptr) (a : EncArgs) : CM Int := do
  storeLen a.clen (a.mlen + 16)
  let tag ← isapMacEncIn d se sm a.k a.npub a.ad a.adlen a.c a.m a.mlen
  storeTag 8 (a.c + a.mlen) tag
  pure 0

end Model.A128.Avx
